{
 "claims": [
  {
   "property": "C01",
   "status": "proved",
   "theorems": [
    "Verif.KDTree.C01_nearest_exact"
   ],
   "note": "**C01** Right after `finalize`, whatever the previous history, whatever permutation `nth_element` produced, a query returns the label of one of the added nodes, at minimal distance, and the reported (squared) distance is that minimum."
  },
  {
   "property": "C02",
   "status": "proved",
   "theorems": [
    "Verif.KDTree.C02_finalize_keeps_points",
    "Verif.KDTree.C02_query_empty_throws"
   ],
   "note": "**C02 (a)** `finalize` keeps exactly the added nodes: the nodes reachable from the root are a permutation of the nodes added (no loss, duplication or alteration)."
  },
  {
   "property": "C03",
   "status": "proved",
   "theorems": [
    "Verif.KDTree.C03_history_independent"
   ],
   "note": "**C03** A query's full answer (label, distance, visited count, or exception) is the same whatever queries were issued on the object before."
  },
  {
   "property": "C04",
   "status": "proved",
   "theorems": [
    "Verif.KDTree.C04_visited_bounds"
   ],
   "note": "**C04** A successful query visits at least one and at most all stored points."
  },
  {
   "property": "C05",
   "status": "proved",
   "theorems": [
    "Verif.KDTree.C05_added_later_not_seen",
    "Verif.KDTree.C05_growth_is_ub",
    "Verif.KDTree.C05_refinalize_restores"
   ],
   "note": "**C05 (a)** After `finalize`, nodes added while capacity remains are simply not seen by queries: the answer is the nearest among the nodes present at the last `finalize`."
  },
  {
   "property": "C06",
   "status": "partial",
   "theorems": [
    "Verif.RootFind.C06_same_sign_throws",
    "Verif.RootFind.C06_bisection_result_partial",
    "Verif.RootFind.C06_false_endpoint_root"
   ],
   "note": "The full statement does not hold of the code; its negation is proved: C06_false_endpoint_root: **C06 is violated by the code** when an end point is an exact root: for `f x = x` on `[0,1]` with zero tolerances `bisection` silently returns `1/2`, where `f` is not zero. What is proved of it: C06_bisection_result_partial: **C06 (partial)** Whenever `bisection` returns normally and neither end point is itself a root, the result is the midpoint of a sign-changing sub-interval reached by `k < maxiter` halvings, and the function value is within `ftol` or the sub-interval width within `xtol`. Missing for the full property: the case where an end point is an exact root, for which the property is false (`C06_false_endpoint_root`). The other theorems listed prove the rest of the statement."
  },
  {
   "property": "C07",
   "status": "partial",
   "theorems": [
    "Verif.RootFind.C07_bisection_terminates_partial",
    "Verif.RootFind.C07_false_at_limit"
   ],
   "note": "The full statement does not hold of the code; its negation is proved: C07_false_at_limit: **C07 is violated by the code at the boundary**: for `f x = x - 1/4` on `[0,1]` and `maxiter = 1` the first halving lands exactly on the root, yet `bisection` throws; with `maxiter = 2` it returns that very point after that one iteration. What is proved of it: C07_bisection_terminates_partial: **C07 (partial)** If `j < maxiter` halvings make the interval narrower than `xtol`, `bisection` returns normally, for every function (continuous or not) with a strict sign change. Missing for the full property: `j = maxiter` (see `C07_false_at_limit`)."
  },
  {
   "property": "C08",
   "status": "partial",
   "theorems": [
    "Verif.RootFind.C08_false_never_throws",
    "Verif.RootFind.C08_false_witness",
    "Verif.RootFind.C08_secant_early_return_partial",
    "Verif.RootFind.C08_secant_affine_exact"
   ],
   "note": "The full statement does not hold of the code; its negation is proved: C08_false_never_throws: **C08 is violated by the code**: for a non-negative iteration limit `secant` never throws, whatever the function, even if the limit is exhausted. | C08_false_witness: **C08 witness**: `f x = x² + 1` has no root, every value is at least 1, yet `secant` with tolerance `1/2` and `maxiter = 2` returns normally. What is proved of it: C08_secant_early_return_partial: **C08 (partial)** If `secant` returns before exhausting `maxiter`, the returned point meets `ftol` or was reached by a secant step shorter than `xtol`. Missing: exhaustion is silent. The other theorems listed prove the rest of the statement."
  },
  {
   "property": "C09",
   "status": "proved",
   "theorems": [
    "Verif.RootFind.C09_quadInterp_stationary"
   ],
   "note": "**C09** `quadInterp` returns the stationary point of the quadratic `a t² + b t + c` that matches value and slope at `x0` and value at `x1`."
  },
  {
   "property": "C10",
   "status": "proved",
   "theorems": [
    "Verif.LineSearch.C10_armijo_or_zero"
   ],
   "note": "**C10** The value returned by the backtracking search is either exactly `0`, in which case *every* trial step violated the Armijo condition and all `maxIter + 1` evaluations were spent, or a positive step that satisfies the Armijo condition, namely the first trial that does."
  },
  {
   "property": "C11",
   "status": "proved",
   "theorems": [
    "Verif.LineSearch.C11_trial_bounds"
   ],
   "note": "**C11** The `k`-th trial step lies between `rhoLo^k` and `rhoHi^k` times the initial step; `phi` is evaluated at most `maxIter + 1` times; hence (for `rhoHi ≤ 1`) the returned step never exceeds the initial step and a non-zero result is at least `rhoLo^maxIter` times it."
  },
  {
   "property": "C12",
   "status": "partial",
   "theorems": [
    "Verif.LineSearch.C12_quadratic_interp",
    "Verif.LineSearch.C12_quadratic_interp_minimiser",
    "Verif.LineSearch.C12_cubic_interp_partial",
    "Verif.LineSearch.C12_false_degenerate_cubic"
   ],
   "note": "The full statement does not hold of the code; its negation is proved: C12_false_degenerate_cubic: **C12 is violated by the code in the degenerate branch**: when the interpolant is exactly quadratic (`A = 0`) with non-zero slope at 0, the returned point is never stationary (the sign is wrong): its derivative there is `2 * dphi0`. What is proved of it: C12_cubic_interp_partial: **C12 (cubic, partial)** Away from the degenerate branch (`|A| ≥ eps`) and when the cubic `A t³ + B t² + dphi0 t + phi0` has stationary points, `cubic_interp` returns its local minimiser: first derivative zero, second derivative non-negative. Missing for the full property: the degenerate branch, which is wrong (`C12_false_degenerate_cubic`). The other theorems listed prove the rest of the statement."
  },
  {
   "property": "C13",
   "status": "proved",
   "theorems": [
    "Verif.LineSearch.C13_step_no_increase",
    "Verif.LineSearch.C13_newton_monotone"
   ],
   "note": "**C13 (one step)** Along a descent direction (`dphi0 ≤ 0`), the step length chosen by the relaxed Newton solver is `0` or lies in `(0,1]` and does not increase the residual norm; it decreases it strictly when `dphi0 < 0` and `mu > 0`."
  },
  {
   "property": "C14",
   "status": "partial",
   "theorems": [
    "Verif.LineSearch.C14_false_ranks_diverge",
    "Verif.LineSearch.C14_full_step_agrees_partial"
   ],
   "note": "The full statement does not hold of the code; its negation is proved: C14_false_ranks_diverge: **C14 is violated by the code**: two ranks with valid local data (each rank's `phi(0)` equals its `phi0`, both slopes are exact Newton slopes `-phi0`) perform different numbers of collective evaluations, so the parallel line search deadlocks. What is proved of it: C14_full_step_agrees_partial: **C14 (partial)** If on every rank the full step satisfies the rank-local Armijo test, all ranks return the same step after one evaluation. Missing: any run in which a rank backtracks."
  },
  {
   "property": "C15",
   "status": "proved",
   "theorems": [
    "Verif.InexactNewton.C15_globalisation",
    "Verif.InexactNewton.C15_no_abort",
    "Verif.InexactNewton.C15_full_step"
   ],
   "note": "**C15** When the globalisation returns normally after `k` reductions: `k ≤ maxIter`; the step satisfies `thetaMin^k ≤ s ≤ thetaMax^k` and lies in `(0,1]`; if any reduction happened `eta ≤ etaMax`; and the residual at the new point satisfies the sufficient decrease test with the last `theta` (0 if no reduction), hence for `0 ≤ t` and a non-negative norm it does not exceed the old one."
  },
  {
   "property": "C16",
   "status": "partial",
   "theorems": [
    "Verif.InexactNewton.C16_slope_symmetric_partial",
    "Verif.InexactNewton.C16_false_nonsymmetric"
   ],
   "note": "The full statement does not hold of the code; its negation is proved: C16_false_nonsymmetric: **C16 is violated by the code** for non-symmetric Jacobians: for `F(x,y) = (x+y, y)` at `(1,1)` with the exact Newton step, no quadratic with the code's slope matches the merit function (the step is an exact Newton step, first conjunct). What is proved of it: C16_slope_symmetric_partial: **C16 (partial)** For a symmetric bilinear `dot` and a Jacobian that is symmetric with respect to it, the slope used by `ComputeStepSize` is the slope of the merit function. Missing: non-symmetric Jacobians, where it is false (`C16_false_nonsymmetric`)."
  },
  {
   "property": "C17",
   "status": "proved",
   "theorems": [
    "Verif.InexactNewton.C17_flag_truthful",
    "Verif.InexactNewton.C17_no_increase",
    "Verif.InexactNewton.C17_exact_step"
   ],
   "note": "**C17** Whenever `InexactNewton::Mult` terminates without aborting, the reported final norm is the residual norm of the returned state, `converged` is set iff that norm is at most `max(rel_tol * initial norm, abs_tol)`, and at most `max_iter` iterations were taken."
  },
  {
   "property": "C18",
   "status": "partial",
   "theorems": [
    "Verif.TimeLoop.C18_time_loop_bounds",
    "Verif.TimeLoop.C18_overshoot_bounded",
    "Verif.TimeLoop.C18_false_for_relaxation"
   ],
   "note": "The full statement does not hold of the code; its negation is proved: C18_false_for_relaxation: **C18 limitation**: with a relaxation stepper (`gamma > 1`) even `exact-t-final` overshoots.  The other theorems listed prove the rest of the statement."
  },
  {
   "property": "C19",
   "status": "proved",
   "theorems": [
    "Verif.TimeLoop.C19_reaches_t_final"
   ],
   "note": "**C19** If `max-iter * dt ≥ t_final - t_initial`, the loop is left through the exit test, the final time is `t_final` to within the exit tolerance (exactly `t_final` unless the last regular step landed inside the tolerance), and the number `n` of steps is minimal: `(n-1) dt < t_final - t_initial`."
  },
  {
   "property": "C20",
   "status": "partial",
   "theorems": [
    "Verif.TimeLoop.C20_log_times_partial",
    "Verif.TimeLoop.C20_false_initial_time",
    "Verif.TimeLoop.C20_false_overwrite",
    "Verif.TimeLoop.C20_kept_when_exhausted_partial"
   ],
   "note": "The full statement does not hold of the code; its negation is proved: C20_false_initial_time: **C20 is violated by the code (time stamp)**: a solve from `t-initial = 5` to `7` logs a snapshot with a time stamp at which there was no solution. | C20_false_overwrite: **C20 is violated by the code (overwriting)**: whenever each-timestep and final-state logging are both on and the loop is left through the exit test, the snapshot taken at the start of the last iteration is lost — its file now holds the final state. What is proved of it: C20_log_times_partial: **C20 (partial)** Every logged snapshot other than the initial one carries its true time; the initial one does too if `t-initial = 0`. Missing: `t-initial ≠ 0` (`C20_false_initial_time`) and the overwriting of snapshots (`C20_false_overwrite`). | C20_kept_when_exhausted_partial: **C20 (kept when not exiting early)** If the loop runs out of iterations instead, the final state gets its own file and every per-iteration snapshot is kept."
  },
  {
   "property": "C21",
   "status": "proved",
   "theorems": [
    "Verif.TimeLoop.C21_ptc_monotone",
    "Verif.TimeLoop.C21_ptc_exit_iff"
   ],
   "note": "**C21** Along any pseudo-transient solve, whatever the residual history, the step sizes handed to the stepper never decrease; and the `k`-th is the largest of `dt * ratio_j`, `j ≤ k` (and of the initial `dt_old = 0`), where `ratio_j = (r_0 / r_j)^exponent` at the `j`-th iterate. If the ratio at the first iterate is 1 (as `res_norm0` is the residual norm there) no step is below the option `dt`."
  },
  {
   "property": "C22",
   "status": "proved",
   "theorems": [
    "Verif.StateFiles.C22_filenames_injective"
   ],
   "note": "**C22** Two saves use the same file name only if they come from the same logger and agree in field name, timestep and rank — for every field name, including names containing underscores, digits or slashes, and for negative timesteps."
  },
  {
   "property": "C23",
   "status": "proved",
   "theorems": [
    "Verif.StateFiles.C23_read_returns_last_save",
    "Verif.StateFiles.C23_other_keys_undisturbed",
    "Verif.StateFiles.C23_missing_file_silent"
   ],
   "note": "**C23** After any history of `saveState` calls (on any fields, timesteps, ranks), `readState` delivers bit for bit the time and vector of the last save with the same field, timestep and rank, whatever the destination held before (`size` fits in an `int`, as MFEM vectors guarantee)."
  },
  {
   "property": "C24",
   "status": "proved",
   "theorems": [
    "Verif.Inputs.C24_value",
    "Verif.Inputs.C24_vector"
   ],
   "note": "**C24** Scalars: an absent key leaves the destination unchanged or, if an error was requested, throws; a key holding a vector throws; a key holding a number delivers that number."
  },
  {
   "property": "C25",
   "status": "partial",
   "theorems": [
    "Verif.Inputs.C25_shallow_aliases",
    "Verif.Inputs.C25_shallow_never_frees",
    "Verif.Inputs.C25_deep_independent",
    "Verif.Inputs.C25_false_deep_copy_into_alias",
    "Verif.Inputs.C25_false_self_input_dangles"
   ],
   "note": "The full statement does not hold of the code; its negation is proved: C25_false_deep_copy_into_alias: **C25 (violated)** \"Deep copy gives an independent vector\" fails when the destination was filled before without deep copy: the copy is written into the first caller's memory. Concretely a vector that was set (shallow) from input `a` and is then set (deep) from input `b` of the same size destroys `a`'s data. | C25_false_self_input_dangles: **C25 (hazard)** Passing a vector that owns its data as an input to itself without deep copy frees the memory the input refers to: any later access is to freed memory.  The other theorems listed prove the rest of the statement."
  },
  {
   "property": "C26",
   "status": "proved",
   "theorems": [
    "Verif.Options.C26_lookup",
    "Verif.Options.C26_unspecified_kept",
    "Verif.Options.C26_specified_wins",
    "Verif.Options.C26_null_removes",
    "Verif.Options.C26_idempotent"
   ],
   "note": "**C26** What the merged options hold at a top-level key: the default if the user does not mention it, nothing if the user sets `null`, else the merge of the default there with the user's value."
  },
  {
   "property": "C27",
   "status": "proved",
   "theorems": [
    "Verif.Boundary.C27_list_marks_exactly",
    "Verif.Boundary.C27_all_none",
    "Verif.Boundary.C27_rejects",
    "Verif.Boundary.C27_independent_of_prior",
    "Verif.Boundary.C27_out_of_range_is_ub"
   ],
   "note": "**C27** A list of attributes within `1..n` marks exactly those attributes, whatever the array held before."
  },
  {
   "property": "C28",
   "status": "partial",
   "theorems": [
    "Verif.Registry.C28_registered_iff_created",
    "Verif.Registry.C28_other_outputs_untouched",
    "Verif.Registry.C28_duplicate_throws",
    "Verif.Registry.C28_unknown_throws",
    "Verif.Registry.C28_dispatch",
    "Verif.Registry.C28_scalar_results",
    "Verif.Registry.C28_errors_reported",
    "Verif.Registry.C28_false_failure_swallowed",
    "Verif.Registry.C28_false_input_failure_swallowed"
   ],
   "note": "The full statement does not hold of the code; its negation is proved: C28_false_failure_swallowed: **C28 (violated: errors are reported)** If evaluating an output fails with `std::out_of_range` — as when a derivative is requested with respect to an input the output does not know — the call returns normally and a one-entry result vector keeps its old content; a scalar evaluation returns NaN. | C28_false_input_failure_swallowed: **C28 (violated: errors are reported)** The same if *setting the inputs* fails with `std::out_of_range`: NaN, or an unchanged result vector, and no exception.  The other theorems listed prove the rest of the statement."
  },
  {
   "property": "C29",
   "status": "proved",
   "theorems": [
    "Verif.Quotient.C29_jvp_is_derivative",
    "Verif.Quotient.C29_vjp_adjoint"
   ],
   "note": "**C29** If numerator and denominator differentiate correctly and the denominator is not zero, the Jacobian-vector product of the ratio is the directional derivative of the ratio."
  },
  {
   "property": "C30",
   "status": "partial",
   "theorems": [
    "Verif.Operators.C30_sum_partial",
    "Verif.Operators.C30_false_stale_work",
    "Verif.Operators.C30_false_stale_result"
   ],
   "note": "The full statement does not hold of the code; its negation is proved: C30_false_stale_work: **C30 (violated)** With a negligible first coefficient the result contains whatever the work vector held: a second product with `a = 0` adds the previous call's `A(x)`. | C30_false_stale_result: **C30 (violated)** With a negligible second coefficient the result contains the previous content of the result vector. What is proved of it: C30_sum_partial: **C30 (part)** If neither coefficient is negligible, the result is `a'·A(x) + b'·B(x)` with coefficients within `1e-16` of the given ones (exactly the given ones unless they are within `1e-16` of 1), independent of the previous contents of the work and result vectors. Missing: negligible coefficients, see `C30_false_*`."
  },
  {
   "property": "C31",
   "status": "partial",
   "theorems": [
    "Verif.Operators.C31_step_bounded",
    "Verif.Operators.C31_affine_exact_partial",
    "Verif.Operators.C31_forward_difference_partial",
    "Verif.Operators.C31_false_zero_scale"
   ],
   "note": "The full statement does not hold of the code; its negation is proved: C31_false_zero_scale: **C31 (violated)** With scale 0 the product is not `0 + explicit part`: the previous content of the result vector survives. What is proved of it: C31_affine_exact_partial: **C31** For an affine residual `R(u) = A u + c` the product is exact: `scale·A x` plus the explicit part, for every baseline, direction and prior content of the result (if `scale` is not negligible). | C31_forward_difference_partial: **C31** For a general residual with Jacobian `J` at the baseline and curvature at most `C` along the direction, the unscaled product differs from `J x` by at most `C·eps/2` in every component. The other theorems listed prove the rest of the statement."
  },
  {
   "property": "C32",
   "status": "partial",
   "theorems": [
    "Verif.Operators.C32_residual_formula",
    "Verif.Operators.C32_assembled_jacobian_exact",
    "Verif.Operators.C32_constructed_jacobian_exact",
    "Verif.Operators.C32_jacobian_free_affine",
    "Verif.Operators.C32_false_unsupported_kinds",
    "Verif.Operators.C32_false_dense_mass_is_ub"
   ],
   "note": "The full statement does not hold of the code; its negation is proved: C32_false_unsupported_kinds: **C32 (violated for other combinations)** If mass matrix and spatial Jacobian are of any other combination of kinds the returned matrix is whatever the storage held before — in particular, right after construction with a hypre mass matrix and a spatial Jacobian of another kind, the mass matrix alone. | C32_false_dense_mass_is_ub: **C32 (hazard)** A mass matrix that is neither hypre, identity nor block leaves the Jacobian unallocated: an implicit step dereferences a null pointer.  The other theorems listed prove the rest of the statement."
  },
  {
   "property": "C33",
   "status": "partial",
   "theorems": [
    "Verif.Ode.C33_midpoint_step_partial",
    "Verif.Ode.C33_explicit_step_partial",
    "Verif.Ode.C33_midpoint_quadratic_entropy",
    "Verif.Ode.C33_false_no_progress"
   ],
   "note": "The full statement does not hold of the code; its negation is proved: C33_false_no_progress: **C33 (violated)** `gamma = 0` always solves the relaxation equation, and nothing excludes it: the relaxed forward Euler step from `u = 1`, `dt = 1` \"converges\" to a step of less than `2e-6 * dt` — the state and the time practically do not advance. What is proved of it: C33_midpoint_step_partial: **C33 (implicit midpoint)** A normal return of the relaxed implicit midpoint step advances state and time by the same relaxed step along the midpoint slope, and the entropy balance is met unless the scalar iteration was exhausted. | C33_explicit_step_partial: **C33 (explicit)** For any tableau with `s ≥ 1` stages: the step uses the slopes of that tableau and advances state and time by the same relaxed step along `Σ b_i k_i`, with the entropy balance taken against the `b`-weighted stage rates. The other theorems listed prove the rest of the statement."
  },
  {
   "property": "C34",
   "status": "proved",
   "theorems": [
    "Verif.Ode.C34_order_six",
    "Verif.Ode.C34_row_sums"
   ],
   "note": "**C34** The `RRK6Solver` coefficients satisfy the order condition of *every* rooted tree with at most 6 vertices to `1e-34` (they are 40-digit decimals), i.e. the unrelaxed method has order 6."
  },
  {
   "property": "C35",
   "status": "proved",
   "theorems": [
    "Verif.BlockJacobi.C35_mult_blockwise",
    "Verif.BlockJacobi.C35_multTranspose_blockwise",
    "Verif.BlockJacobi.C35_linear",
    "Verif.BlockJacobi.C35_transpose_adjoint",
    "Verif.BlockJacobi.C35_set_operator",
    "Verif.BlockJacobi.C35_jacobian_free_blocks"
   ],
   "note": "**C35** `Mult` applies each block's solver to its own segment, and copies the segment where no solver is set; each result segment depends on the same segment of `x` only."
  },
  {
   "property": "C36",
   "status": "proved",
   "theorems": [
    "Verif.NLForm.C36_evaluate_after_any_history",
    "Verif.NLForm.C36_zero_at_essential"
   ],
   "note": "**C36** After *any* history of calls, evaluating returns the residual of the specification for the parameters set last: the assembled residual on free dofs, and on essential dofs the mismatch with the registered boundary values (0 if none are registered)."
  },
  {
   "property": "C37",
   "status": "partial",
   "theorems": [
    "Verif.NLForm.C37_state_products_adjoint",
    "Verif.NLForm.C37_jvp_exact_partial",
    "Verif.NLForm.C37_false_dirichlet_rows",
    "Verif.NLForm.C37_field_reverse",
    "Verif.NLForm.C37_false_scalar_reverse",
    "Verif.NLForm.C37_scalar_reverse_partial"
   ],
   "note": "The full statement does not hold of the code; its negation is proved: C37_false_dirichlet_rows: **C37 (violated with registered boundary values)** With a `dirichlet_bc` field the residual is `u - bc` on essential dofs, with derivative 1 there, but the forward product returns 0. | C37_false_scalar_reverse: **C37 (violated for scalars)** The reverse product with respect to a scalar does not zero the seed on essential dofs: for any seed that is nonzero on one, some residual derivative gives a wrong value. The correct value is `r · zeroEss g`. What is proved of it: C37_jvp_exact_partial: **C37 (partial: no registered boundary values)** Right after `getJacobian` at the current parameters and state the forward product is the exact derivative of `evaluate`. | C37_scalar_reverse_partial: **C37 (partial, scalars)** It is correct for seeds vanishing on essential dofs. The other theorems listed prove the rest of the statement."
  },
  {
   "property": "C38",
   "status": "partial",
   "theorems": [
    "Verif.NLForm.C38_linearize_fresh_partial",
    "Verif.NLForm.C38_false_linearize_stale"
   ],
   "note": "The full statement does not hold of the code; its negation is proved: C38_false_linearize_stale: **C38 (violated)** On any form that already holds a Jacobian — assembled at whatever inputs — `linearize` at new inputs keeps using the old one. What is proved of it: C38_linearize_fresh_partial: **C38 (partial)** On a form with no Jacobian yet, `linearize` makes products use the Jacobian at its inputs; a `getJacobian` call always does so."
  },
  {
   "property": "C39",
   "status": "partial",
   "theorems": [
    "Verif.NLForm.C39_adjoint_on_free_dofs",
    "Verif.NLForm.C39_finalized_adjoint",
    "Verif.NLForm.C39_false_uses_stored_jacobian"
   ],
   "note": "The full statement does not hold of the code; its negation is proved: C39_false_uses_stored_jacobian: **C39 (hazard)** Setting up the adjoint system before any Jacobian was assembled throws, and after a history the operator is that of the Jacobian assembled last, not of the inputs passed.  The other theorems listed prove the rest of the statement."
  },
  {
   "property": "C40",
   "status": "partial",
   "theorems": [
    "Verif.NLForm.C40_boundary_restricted",
    "Verif.NLForm.C40_false_domain_unrestricted",
    "Verif.NLForm.C40_false_witness"
   ],
   "note": "The full statement does not hold of the code; its negation is proved: C40_false_domain_unrestricted: **C40 (violated for domain integrators)** A domain integrator added with an attribute list contributes on *all* domain elements. | C40_false_witness: A concrete violation: one integrator with value 1 restricted to attribute 1 on a mesh with elements of attributes 1 and 2 assembles 2 instead of 1; and an attribute larger than the largest *boundary* attribute is an out-of-bounds write.  The other theorems listed prove the rest of the statement."
  },
  {
   "property": "C41",
   "status": "partial",
   "theorems": [
    "Verif.Loads.C41_addLoad_fresh_partial",
    "Verif.Loads.C41_false_after_caught_exception",
    "Verif.Loads.C41_false_after_unmarking",
    "Verif.Loads.C41_false_stator_undefined"
   ],
   "note": "The full statement does not hold of the code; its negation is proved: C41_false_after_caught_exception: C41 is false when the client catches an exception: the first group's density has been stored but the load is not marked out of date, so later calls keep subtracting the old load (10 + 1 = 11 instead of 10 + 3 = 13). | C41_false_after_unmarking: C41 is false when options remove a dof from the essential list: its load entry was zeroed in place and is not reassembled. | C41_false_stator_undefined: With a stator source every assembly is undefined behaviour (the source's lambda holds references to dead locals). What is proved of it: C41_addLoad_fresh_partial: C41 (partial). Whatever history of input updates, option updates, load additions and derivative products precedes, `addLoad` subtracts the load assembled for the current densities, coordinates and essential dofs the history prescribes — provided nothing threw, no stator source is used, and option updates only ever enlarge the essential set. Missing (and false, see below): histories in which the client catches an exception, or un-marks an essential dof."
  },
  {
   "property": "C42",
   "status": "partial",
   "theorems": [
    "Verif.Loads.C42_density_derivative_partial",
    "Verif.Loads.C42_false_stator_key",
    "Verif.Loads.C42_false_prefixed_group"
   ],
   "note": "The full statement does not hold of the code; its negation is proved: C42_false_stator_key: C42 is false for a load with a stator source listed (even with no element using it): restoring the densities throws `std::out_of_range` because the slot count is stored among the cached densities; the exception leaves the load not marked out of date, so later additions use the *unit* load. | C42_false_prefixed_group: C42 is false for a group whose plain name is another group's input key: the derivative call overwrites its density with 1. What is proved of it: C42_density_derivative_partial: C42 (3D load). After any benign history, the product with respect to a group's current density is the exact derivative of the load's residual contribution (the contribution is affine in the density, and the product is its slope in direction `bar`), and the stored densities are unchanged."
  },
  {
   "property": "C43",
   "status": "partial",
   "theorems": [
    "Verif.Loads.C43_current_only_partial",
    "Verif.Loads.C43_products_adjoint",
    "Verif.Loads.C43_false_with_magnets",
    "Verif.Loads.C43_false_volume_null"
   ],
   "note": "The full statement does not hold of the code; its negation is proved: C43_false_with_magnets: C43 is false with magnets: the \"derivative\" also contains the magnetisation load. Unit current load 1, magnet load 5: residual `nl + t + 5` has slope 1, the code returns 6. | C43_false_volume_null: On volume meshes the residual has no current coefficient of its own, and both products dereference a null pointer. What is proved of it: C43_current_only_partial: C43 (partial: no magnets, planar meshes). The forward and reverse products with respect to a current density are the exact derivative of the residual (which is affine in it), accumulate into the result, and leave the densities unchanged. The other theorems listed prove the rest of the statement."
  },
  {
   "property": "C44",
   "status": "partial",
   "theorems": [
    "Verif.Thermal.C44_load_subtracted_partial",
    "Verif.Thermal.C44_false_caller_vector_modified",
    "Verif.Thermal.C44_false_dangling",
    "Verif.Thermal.C44_products_adjoint",
    "Verif.Thermal.C44_free_dofs_partial",
    "Verif.Thermal.C44_false_products"
   ],
   "note": "The full statement does not hold of the code; its negation is proved: C44_false_caller_vector_modified: C44 fails: setting inputs writes into the caller's load vector — it is left with its essential entries zeroed — for every load and every essential list. | C44_false_dangling: C44 fails: the residual keeps pointing at the caller's vector; if the caller has released it, the next input update that does not mention the load is undefined behaviour. | C44_false_products: C44 fails: on an essential dof the residual does not depend on the load at all, but the product reports `-wrt_dot`; and the old content of the result is lost instead of being accumulated into. What is proved of it: C44_load_subtracted_partial: C44 (what holds): passing a load of the residual's size and evaluating subtracts that load, with the essential entries dropped. | C44_free_dofs_partial: On dofs that are not essential the forward product, started from zero, is the exact change of the residual under a change of the load. The other theorems listed prove the rest of the statement."
  },
  {
   "property": "C45",
   "status": "partial",
   "theorems": [
    "Verif.Warper.C45_residual_rows",
    "Verif.Warper.C45_surface_prescribed_partial",
    "Verif.Warper.C45_false_without_essential",
    "Verif.Warper.C45_surface_jvp_exact",
    "Verif.Warper.C45_surface_products_adjoint"
   ],
   "note": "The full statement does not hold of the code; its negation is proved: C45_false_without_essential: Without the `bcs/essential` option the form has no essential dofs and the warp moves the surface: the property is false in general. What is proved of it: C45_surface_prescribed_partial: C45. If the essential dofs of the elasticity form contain the surface dofs, then after any number of Newton iterations (with any step scaling, exact linear solves, any elasticity operator) the volume coordinates on the surface are exactly the surface coordinates the client prescribed. The other theorems listed prove the rest of the statement."
  },
  {
   "property": "C46",
   "status": "partial",
   "theorems": [
    "Verif.Warper.C46_false_out_of_bounds",
    "Verif.Warper.C46_false_general",
    "Verif.Warper.C46_false_values"
   ],
   "note": "The full statement does not hold of the code; its negation is proved: C46_false_out_of_bounds: C46 is false: with surface dof 2 of a 3-dof volume the reverse mode accesses memory outside the input buffer. | C46_false_general: In general: the reverse mode leaves the buffer whenever some surface index is not smaller than the number of surface dofs. | C46_false_values: Even when every access stays inside, the values are wrong: surface indices `[1, 0]` of a 2-dof volume, where the reverse mode would be right only for a symmetric map."
  },
  {
   "property": "C47",
   "status": "partial",
   "theorems": [
    "Verif.Projector.C47_split",
    "Verif.Projector.C47_irrotational",
    "Verif.Projector.C47_weak_divergence_zero",
    "Verif.Projector.C47_idempotent",
    "Verif.Projector.C47_fixes_divfree_kills_gradients",
    "Verif.Projector.C47_vjp_is_transpose",
    "Verif.Projector.C47_never_stale",
    "Verif.Projector.C47_false_unannounced_motion"
   ],
   "note": "The full statement does not hold of the code; its negation is proved: C47_false_unannounced_motion: The protocol is necessary: a mesh motion that is not announced leaves the projector using the old forms.  The other theorems listed prove the rest of the statement."
  },
  {
   "property": "C48",
   "status": "partial",
   "theorems": [
    "Verif.Pcu.C48_legal_trace_partial",
    "Verif.Pcu.C48_leaves_foreign_library_alone_partial",
    "Verif.Pcu.C48_false_sticky_flag",
    "Verif.Pcu.C48_false_mesh_outlives_library"
   ],
   "note": "The full statement does not hold of the code; its negation is proved: C48_false_sticky_flag: The property is false when another user brings the library up and later takes it down: the flag `PCU_previously_initialized` is never cleared, so MISO does not initialise the library for the next mesh and loads it with the library down. | C48_false_mesh_outlives_library: Nor does the library outlive the meshes: the last object's PUMI mesh is destroyed after `PCU_Comm_Free`. What is proved of it: C48_legal_trace_partial: C48. If nobody else uses the library, then for every history of constructions, moves, loads and destructions of mesh objects: the library is initialised only when down and finalised only when up, every mesh is loaded while it is up, and at the end it is up exactly when some object is alive. The full property also demands this when other users of the library come and go and that meshes do not outlive the library: see the `_false_` theorems. | C48_leaves_foreign_library_alone_partial: C48. If another user brought the library up first and keeps it up, MISO never initialises or finalises it."
  },
  {
   "property": "C49",
   "status": "partial",
   "theorems": [
    "Verif.SurfaceMesh.C49_elements_and_coordinates",
    "Verif.SurfaceMesh.C49_renumbering_bijective",
    "Verif.SurfaceMesh.C49_order_preserved",
    "Verif.SurfaceMesh.C49_nodes_partial",
    "Verif.SurfaceMesh.C49_nodes_defined_iff",
    "Verif.SurfaceMesh.C49_nodes_false"
   ],
   "note": "The full statement does not hold of the code; its negation is proved: C49_nodes_false: Two elements, only the second selected: the copy runs out of bounds. What is proved of it: C49_nodes_partial: C49 (nodes). If the selected boundary elements are exactly the first ones (in particular if all are selected), the copied nodal function gives every vertex of the surface its coordinates. The full property asks this for every marker array; see `C49_nodes_defined_iff` for what happens otherwise. The other theorems listed prove the rest of the statement."
  },
  {
   "property": "C50",
   "status": "proved",
   "theorems": [
    "Verif.OrthoPoly.C50_triangle",
    "Verif.OrthoPoly.C50_tetrahedron",
    "Verif.OrthoPoly.C50_segment"
   ],
   "note": "C50 (triangle). The loops fill exactly the allocated number of columns; the basis function of degree `(i, j)` is in column `r(r+1)/2 + j`, `r = i + j`; and every column holds one of total degree at most `d`. Hence every pair with `i + j ≤ d` is used exactly once."
  },
  {
   "property": "C51",
   "status": "partial",
   "theorems": [
    "Verif.OrthoPoly.C51_jacobi_orthonormal_partial",
    "Verif.OrthoPoly.C51_false_beta"
   ],
   "note": "The full statement does not hold of the code; its negation is proved: C51_false_beta: C51 is false for `β ≠ 0`: the degree-1 value differs from the orthonormal polynomial at every point. What is proved of it: C51_jacobi_orthonormal_partial: C51. For `β = 0` (every use in the code) and every `α > -1`, degree and point, `jacobiPoly` is the classical Jacobi polynomial divided by its norm. Missing for the full property: `β ≠ 0` (where it is false, next theorem)."
  },
  {
   "property": "C52",
   "status": "proved",
   "theorems": [
    "Verif.EulerFluxes.C52_freestream",
    "Verif.EulerFluxes.C52_freestream_1d",
    "Verif.EulerFluxes.C52_equal_axes_wrong",
    "Verif.EulerFluxes.C52_pressure_gradient"
   ],
   "note": "If both axes are the same index (the option parser does not forbid it) the speed is wrong and the energy no longer matches pressure `1/γ`."
  },
  {
   "property": "C53",
   "status": "proved",
   "theorems": [
    "Verif.EulerFluxes.C53_entvars_range",
    "Verif.EulerFluxes.C53_roundtrip_cons",
    "Verif.EulerFluxes.C53_cons_admissible",
    "Verif.EulerFluxes.C53_roundtrip_ent"
   ],
   "note": ""
  },
  {
   "property": "C54",
   "status": "proved",
   "theorems": [
    "Verif.EulerFluxes.C54_euler_flux",
    "Verif.EulerFluxes.C54_face_symmetric",
    "Verif.EulerFluxes.C54_coord_symmetric",
    "Verif.EulerFluxes.C54_face_homogeneous",
    "Verif.EulerFluxes.C54_coord_eq_face",
    "Verif.EulerFluxes.C54_consistent",
    "Verif.EulerFluxes.C54_coord_consistent",
    "Verif.EulerFluxes.C54_entvars_face",
    "Verif.EulerFluxes.C54_entvars_coord"
   ],
   "note": "The coordinate flux is the face flux in the unit direction."
  },
  {
   "property": "C55",
   "status": "proved",
   "theorems": [
    "Verif.EulerFluxes.C55_production_identity",
    "Verif.EulerFluxes.C55_entropy_conservative_exact",
    "Verif.EulerFluxes.C55_entropy_conservative",
    "Verif.EulerFluxes.C55_entropy_conservative_coord",
    "Verif.EulerFluxes.C55_entropy_conservative_entvars"
   ],
   "note": "Exact value of the entropy production of the face flux for all admissible pairs: the mass flux times the error of the logarithmic means."
  },
  {
   "property": "C56",
   "status": "proved",
   "theorems": [
    "Verif.EulerFluxes.C56_boundary_consistent",
    "Verif.EulerFluxes.C56_roe_consistent",
    "Verif.EulerFluxes.C56_farfield_consistent",
    "Verif.EulerFluxes.C56_farfield2_consistent",
    "Verif.EulerFluxes.C56_roe_antisymmetric",
    "Verif.EulerFluxes.C56_supersonic_outflow",
    "Verif.EulerFluxes.C56_jacobian",
    "Verif.EulerFluxes.C56_supersonic_inflow",
    "Verif.EulerFluxes.C56_acoustic_wave",
    "Verif.EulerFluxes.C56_convective_wave",
    "Verif.EulerFluxes.C56_variants_agree",
    "Verif.EulerFluxes.C56_farfield_supersonic_outflow",
    "Verif.EulerFluxes.C56_farfield_supersonic_inflow",
    "Verif.EulerFluxes.C56_farfield2_upwind"
   ],
   "note": "`calcBoundaryFlux(dir, q, q) = F(q)·dir`. (`dir ≠ 0` and admissibility are what makes the C++ divisions meaningful.)"
  },
  {
   "property": "C57",
   "status": "proved",
   "theorems": [
    "Verif.EulerFluxes.C57_prescribed_entropy_flux"
   ],
   "note": "The flux returned by `calcBoundaryFluxEC` satisfies `w·f = ψ(q) + entflux` for every direction, boundary state, interior state and prescribed entropy flux."
  },
  {
   "property": "C58",
   "status": "proved",
   "theorems": [
    "Verif.EulerFluxes.C58_symmetric",
    "Verif.EulerFluxes.C58_positive_definite",
    "Verif.EulerFluxes.C58_is_derivative"
   ],
   "note": "`calcdQdWProduct` is the derivative of the map entropy variables → conservative variables."
  },
  {
   "property": "C59",
   "status": "proved",
   "theorems": [
    "Verif.EulerFluxes.C59_projection",
    "Verif.EulerFluxes.C59_slipwall",
    "Verif.EulerFluxes.C59_slipwall_tangential",
    "Verif.EulerFluxes.C59_slipwall_entropy",
    "Verif.EulerFluxes.C59_slipwall_entvars"
   ],
   "note": "The projection removes exactly the wall-normal momentum."
  },
  {
   "property": "C60",
   "status": "proved",
   "theorems": [
    "Verif.Coefficients.C60_hashin_shtrikman_bounds",
    "Verif.Coefficients.C60_hashin_shtrikman_monotone",
    "Verif.Coefficients.C60_constituent_order_irrelevant",
    "Verif.Coefficients.C60_fill_factor_default",
    "Verif.Coefficients.C60_hashin_shtrikman_derivative"
   ],
   "note": "C60: for positive constituents (given in either order) and a fill factor `w ∈ [0,1]` the Hashin–Shtrikman coefficient lies between the constituents; at `w = 0` it is the smaller, at `w = 1` the larger one."
  },
  {
   "property": "C61",
   "status": "partial",
   "theorems": [
    "Verif.Coefficients.C61_weighted_average_bounds",
    "Verif.Coefficients.C61_false_weight_of_first_listed",
    "Verif.Coefficients.C61_weighted_average_derivative"
   ],
   "note": "The full statement does not hold of the code; its negation is proved: C61_false_weight_of_first_listed: C61: the fill factor always belongs to the *larger* constituent: a user who lists `[light, heavy]` with `fill_factor = 1` gets `heavy`, so \"the weight of the first listed material\" is not what the coefficient computes.  The other theorems listed prove the rest of the statement."
  },
  {
   "property": "C62",
   "status": "proved",
   "theorems": [
    "Verif.Coefficients.C62_dispatch",
    "Verif.Coefficients.C62_stateless_eval_is_state_zero"
   ],
   "note": "C62: registering coefficients succeeds exactly when no attribute is given twice; then the coefficient evaluates, for every attribute, the one registered for it, else the default, else 0 — and the state derivative, second derivative and reverse mode use the same selection."
  },
  {
   "property": "C63",
   "status": "partial",
   "theorems": [
    "Verif.Coefficients.C63_material_values_partial",
    "Verif.Coefficients.C63_missing_property_is_zero",
    "Verif.Coefficients.C63_default_value_ignored",
    "Verif.Coefficients.C63_false_default_value_used",
    "Verif.Coefficients.C63_composite_errors",
    "Verif.Coefficients.C63_overlapping_components_abort",
    "Verif.Coefficients.C63_two_state_default_used"
   ],
   "note": "The full statement does not hold of the code; its negation is proved: C63_false_default_value_used: C63 is false as stated: a material without the property does not get the default. What is proved of it: C63_material_values_partial: C63 (partial: the default is not honoured, see below): when the coefficient of property `name` is built, every attribute of a component whose material has a numeric value evaluates to that value; for a composite material it evaluates to the requested mixture of the two constituents' values at fill factor 1/2. The other theorems listed prove the rest of the statement."
  },
  {
   "property": "C64",
   "status": "proved",
   "theorems": [
    "Verif.Coefficients.C64_product_value",
    "Verif.Coefficients.C64_state_derivative_exact",
    "Verif.Coefficients.C64_stateless_eval_is_state_zero",
    "Verif.Coefficients.C64_reverse_mode_exact"
   ],
   "note": "C64: the product coefficient evaluates `scalar · vector`, with and without a state."
  },
  {
   "property": "C65",
   "status": "partial",
   "theorems": [
    "Verif.Control.C65_standalone_partial",
    "Verif.Control.C65_false_coupled_ignores_setting",
    "Verif.Control.C65_false_reset"
   ],
   "note": "The full statement does not hold of the code; its negation is proved: C65_false_coupled_ignores_setting: **C65 (violated)** In the coupled flow-control residual the setting is never respected: whatever was set before and whatever the evaluation's own inputs say, the evaluation ends in closed-loop mode and its result does not depend on the `\"closed-loop\"` input. | C65_false_reset: **C65 (violated)** Also stand-alone: `setInputs({\"closed-loop\", 0})` followed by an evaluation whose inputs lack the key is closed-loop again, for every controller state. What is proved of it: C65_standalone_partial: **C65 (partial)** A stand-alone controller evaluated with `\"closed-loop\" = 0` *in that same call* uses the open-loop law; with a non-zero value or without the key it adds the feedback."
  },
  {
   "property": "C66",
   "status": "proved",
   "theorems": [
    "Verif.Control.C66_jacobian_exact",
    "Verif.Control.C66_jacobian_constant",
    "Verif.Control.C66_extract_states"
   ],
   "note": "**C66** The controller residual is affine in its state with exactly the matrix returned by `getJacobian`, in both modes and both laws, for all states and increments."
  },
  {
   "property": "C67",
   "status": "proved",
   "theorems": [
    "Verif.Control.C67_energy_exchange",
    "Verif.Control.C67_conserves_uncoupled"
   ],
   "note": "**C67** In test mode `x · res` is the product of the control velocity and the boundary entropy, so the controller energy `½ x·x` changes only through the exchange with the flow …"
  },
  {
   "property": "C68",
   "status": "partial",
   "theorems": [
    "Verif.LpError.C68_lp_error_value",
    "Verif.LpError.C68_partition_independent",
    "Verif.LpError.C68_sign_independent",
    "Verif.LpError.C68_zero_iff_agree",
    "Verif.LpError.C68_vector_length_value",
    "Verif.LpError.C68_vector_entry_partial",
    "Verif.LpError.C68_false_vector_entry",
    "Verif.LpError.C68_false_vector_entry_max",
    "Verif.LpError.C68_max_error_value",
    "Verif.LpError.C68_l2_error_is_lp_error",
    "Verif.LpError.C68_l2_vector_entry",
    "Verif.LpError.C68_triangle_inequality"
   ],
   "note": "The full statement does not hold of the code; its negation is proved: C68_false_vector_entry: C68 is false for one entry of a vector state: with `p = 1` errors `+1` and `-1` cancel and the L1 error of a state that disagrees everywhere is 0. | C68_false_vector_entry_max: C68 is false for one entry in the maximum norm as well: a state below the exact solution everywhere has error 0. What is proved of it: C68_vector_entry_partial: C68 (partial): the error of one entry of a vector state is the scalar error of that entry if the entry's differences are non-negative everywhere. The other theorems listed prove the rest of the statement."
  },
  {
   "property": "C69",
   "status": "partial",
   "theorems": [
    "Verif.AsciiFiles.C69_ascii_roundtrip_partial",
    "Verif.AsciiFiles.C69_ascii_readable",
    "Verif.AsciiFiles.C69_false_nonfinite_time",
    "Verif.AsciiFiles.C69_false_nonfinite_entry"
   ],
   "note": "The full statement does not hold of the code; its negation is proved: C69_false_nonfinite_time: **C69 (violated for non-finite values)** If the saved time is infinite or NaN the file never reads back: the time becomes 0 and the state is empty. | C69_false_nonfinite_entry: **C69 (violated for non-finite values)** After the first non-finite entry every later entry is lost: the vector keeps there whatever memory `SetSize` left. What is proved of it: C69_ascii_roundtrip_partial: **C69** A text state file whose time and entries are all finite reads back exactly, whatever the destination held, for every tie-breaking rule of the conversions. The other theorems listed prove the rest of the statement."
  },
  {
   "property": "C70",
   "status": "partial",
   "theorems": [
    "Verif.Quotient.C70_numerator_gradient",
    "Verif.Quotient.C70_denominator_gradient",
    "Verif.Quotient.C70_shift_invariant",
    "Verif.Quotient.C70_between_min_and_max",
    "Verif.Quotient.C70_partition_independent_partial",
    "Verif.Quotient.C70_false_partition"
   ],
   "note": "The full statement does not hold of the code; its negation is proved: C70_false_partition: **C70 (violated in parallel)** Each rank shifts by the maximum of its own entries, so the aggregate depends on how the mesh is partitioned: two points with values 0 and 1 give 1/2 on two ranks but 1/(1+e⁻¹) on one. What is proved of it: C70_partition_independent_partial: **C70 (part)** If all ranks happen to use the same shift, the parallel result equals the serial one for every partition. The other theorems listed prove the rest of the statement."
  },
  {
   "property": "C71",
   "status": "proved",
   "theorems": [
    "Verif.Ode.C71_backward_euler",
    "Verif.Ode.C71_stationary_is_steady",
    "Verif.Ode.C71_steady_is_kept",
    "Verif.Ode.C71_steady_step"
   ],
   "note": "**C71** A pseudo-transient step with an exact solve is a backward-Euler step: `M (x' - x) = -dt R(x')`, `t' = t + dt`, whatever the solver's work vector held."
  },
  {
   "property": "C72",
   "status": "proved",
   "theorems": [
    "Verif.Control.C72_open_loop_lyapunov",
    "Verif.Control.C72_p_matrix_symmetric"
   ],
   "note": "**C72** With the documented `P` and positive gains the controller entropy is positive definite, and under the open-loop law it decays: the rate `xᵀP res` is `½ s (x₀² + x₁²/q)`."
  },
  {
   "property": "C73",
   "status": "partial",
   "theorems": [
    "Verif.SurfaceDist.C73_distance_to_a_point_of_the_element",
    "Verif.SurfaceDist.C73_exact_on_straight_elements_partial",
    "Verif.SurfaceDist.C73_never_underestimates",
    "Verif.SurfaceDist.C73_false_wrong_element",
    "Verif.SurfaceDist.C73_false_short_elements"
   ],
   "note": "The full statement does not hold of the code; its negation is proved: C73_false_wrong_element: The property \"`calcDistance` is the distance to the surface\" is false: two straight elements `(0,0)-(1,0)` and `(1,0)-(1,10)` sharing the node `(1,0)`, which is the node nearest to `(2,2)`; the shared node belongs to the first element in MFEM's dof-to-element table, so the code returns the distance to the first element, at least `√5`, while the point `(1,2)` of the second element is at distance 1. | C73_false_short_elements: On short elements (squared length at most the pivot tolerance of `LinearSolve`) the search throws whenever the centre is not already optimal. What is proved of it: C73_exact_on_straight_elements_partial: C73. For a straight element that `LinearSolve` does not regard as singular, the result is the distance to the element: never more than the distance to any of its points, up to `tol / length` (which is the stopping tolerance). The other theorems listed prove the rest of the statement."
  },
  {
   "property": "C74",
   "status": "proved",
   "theorems": [
    "Verif.OrthoPoly.C74_nodes_symmetric",
    "Verif.OrthoPoly.C74_end_nodes",
    "Verif.OrthoPoly.C74_weights",
    "Verif.OrthoPoly.C74_fixed_points"
   ],
   "note": "C74. After every number of sweeps the nodes are symmetric about 0."
  },
  {
   "property": "C75",
   "status": "proved",
   "theorems": [
    "Verif.EulerFluxes.C75_entropy_value",
    "Verif.EulerFluxes.C75_entropy_entvars",
    "Verif.EulerFluxes.C75_gradient",
    "Verif.EulerFluxes.C75_relative_entropy"
   ],
   "note": "`entropy<entvar=true>` on the entropy variables agrees with `entropy` on the state."
  },
  {
   "property": "C76",
   "status": "proved",
   "theorems": [
    "Verif.EulerFluxes.C76_dissipative",
    "Verif.EulerFluxes.C76_entvars",
    "Verif.EulerFluxes.C76_consistent",
    "Verif.EulerFluxes.C76_lps"
   ],
   "note": "For a non-negative coefficient the face flux with dissipation never produces entropy, up to the `1e-16` relative error of the logarithmic mean."
  },
  {
   "property": "C77",
   "status": "proved",
   "theorems": [
    "Verif.EulerFluxes.C77_control_entropy",
    "Verif.EulerFluxes.C77_control_zero",
    "Verif.EulerFluxes.C77_control_consistent"
   ],
   "note": "The control boundary flux injects exactly the entropy transported by the control velocity: `w·f - ψ = U S(q)` with `U = -vel |n|`."
  },
  {
   "property": "C78",
   "status": "proved",
   "theorems": [
    "Verif.EulerFluxes.C78_spectral_radius",
    "Verif.EulerFluxes.C78_entvars"
   ],
   "note": "`calcSpectralRadius` is the modulus of the largest eigenvalue of the flux Jacobian: it is attained by an eigenvector, and every real eigenvalue is bounded by it."
  },
  {
   "property": "C79",
   "status": "proved",
   "theorems": [
    "Verif.EulerFluxes.C79_variants_agree",
    "Verif.EulerFluxes.C79_boundary_flux_consistent",
    "Verif.EulerFluxes.C79_vortex_state",
    "Verif.EulerFluxes.C79_vortex_steady",
    "Verif.EulerFluxes.C79_left_half_wrong"
   ],
   "note": "On the exact solution the vortex boundary flux is the physical flux of the vortex, in both sets of variables."
  },
  {
   "property": "C80",
   "status": "partial",
   "theorems": [
    "Verif.Coefficients.C80_state_derivative_exact",
    "Verif.Coefficients.C80_second_state_derivative_partial",
    "Verif.Coefficients.C80_false_second_derivative_continuation",
    "Verif.Coefficients.C80_reverse_mode_exact"
   ],
   "note": "The full statement does not hold of the code; its negation is proved: C80_false_second_derivative_continuation: C80: the second derivative reported by a continuation coefficient is wrong: 0 although the coefficient is `λ·state²`. What is proved of it: C80_second_state_derivative_partial: C80: second state derivatives are exact for every nesting *without* a continuation coefficient. Partial: with one the claim is false (next theorem). The other theorems listed prove the rest of the statement."
  },
  {
   "property": "C81",
   "status": "partial",
   "theorems": [
    "Verif.Coefficients.C81_inputs_reach_every_material",
    "Verif.Coefficients.C81_set_inputs_idempotent",
    "Verif.Coefficients.C81_false_continuation_forwards"
   ],
   "note": "The full statement does not hold of the code; its negation is proved: C81_false_continuation_forwards: C81: a continuation coefficient does *not* forward inputs to the coefficients it blends, so a weighted material inside one keeps its old fill factor.  The other theorems listed prove the rest of the statement."
  },
  {
   "property": "C82",
   "status": "proved",
   "theorems": [
    "Verif.Control.C82_coupled_uses_given_state",
    "Verif.Control.C82_feedback_direction"
   ],
   "note": "**C82** A successful evaluation of the coupled residual applies to the flow exactly the control-law velocity for the control state handed in and the boundary entropy of the flow state handed in, with each gain taken from the inputs if present and otherwise from the last one set; the controller part is the closed-loop law for the same data."
  },
  {
   "property": "C83",
   "status": "proved",
   "theorems": [
    "Verif.OrthoPoly.C83_jacobi_orthonormal",
    "Verif.OrthoPoly.C83_triangle_orthonormal",
    "Verif.OrthoPoly.C83_tetrahedron_orthonormal",
    "Verif.Sbp.C83_unit_segment",
    "Verif.Sbp.C83_unit_triangle",
    "Verif.Sbp.C83_unit_tetrahedron"
   ],
   "note": "C83 (segment). For every natural `α` and `β = 0` (every use in the code) the values returned by `jacobiPoly` are orthonormal on `[-1, 1]` for the weight `(1-x)^α`, for all degrees."
  },
  {
   "property": "C84",
   "status": "proved",
   "theorems": [
    "Verif.OrthoPoly.C84_triangle_polynomial",
    "Verif.OrthoPoly.C84_tetrahedron_polynomial"
   ],
   "note": "C84 (triangle). On the reference triangle (including the vertex where the collapsed coordinate is undefined) the function of column `(i, j)` is a polynomial of total degree at most `i + j`."
  },
  {
   "property": "C85",
   "status": "partial",
   "theorems": [
    "Verif.Sbp.C85_mult_weak",
    "Verif.Sbp.C85_mult_weak_trans",
    "Verif.Sbp.C85_trans_is_transpose",
    "Verif.Sbp.C85_interfaces_agree",
    "Verif.Sbp.C85_norm_inverse",
    "Verif.Sbp.C85_adjoint",
    "Verif.Sbp.C85_summation_by_parts",
    "Verif.Sbp.C85_dshape_false",
    "Verif.Sbp.C85_dshape_linear_false",
    "Verif.Sbp.C85_dshape_equal_weights_partial",
    "Verif.Sbp.C85_dshape_value_partial",
    "Verif.Sbp.C85_skew",
    "Verif.Sbp.C85_skew_value",
    "Verif.Sbp.C85_qentry",
    "Verif.Sbp.C85_skew_rev_diff"
   ],
   "note": "The full statement does not hold of the code; its negation is proved: C85_dshape_false: **Violation.** `CalcDShape` is documented to return row `ip` of the derivative operator, but it divides entry `j` by `H(j)` rather than by `H(ip)`: on the degree-1 segment element it does not even give derivative 1 for `x ↦ x` at the left end (it gives 1/2). | C85_dshape_linear_false What is proved of it: C85_dshape_equal_weights_partial: What does hold: `CalcDShape` is right for elements whose weights are all equal (degree 0). | C85_dshape_value_partial: What `CalcDShape` computes in general: the true row times `H(ip)/H(j)`. The other theorems listed prove the rest of the statement."
  },
  {
   "property": "C86",
   "status": "proved",
   "theorems": [
    "Verif.Sbp.C86_entry_eq_matrix",
    "Verif.Sbp.C86_mult",
    "Verif.Sbp.C86_adjoint",
    "Verif.Sbp.C86_annihilates",
    "Verif.Sbp.C86_idempotent",
    "Verif.Sbp.C86_self_adjoint",
    "Verif.Sbp.C86_conserves",
    "Verif.Sbp.C86_contraction"
   ],
   "note": "Applying the operator, the matrix and the entries all agree, in both directions."
  },
  {
   "property": "C87",
   "status": "partial",
   "theorems": [
    "Verif.Sbp.C87_triangle",
    "Verif.Sbp.C87_tetrahedron",
    "Verif.Sbp.C87_segment_value_partial",
    "Verif.Sbp.C87_segment_false",
    "Verif.Sbp.C87_at_stored_node",
    "Verif.Sbp.C87_triangle_copy_agrees",
    "Verif.Sbp.C87_segment_copy_false"
   ],
   "note": "The full statement does not hold of the code; its negation is proved: C87_segment_false: **Violation.** On the degree-0 segment element the constant solution 1 evaluates to `√2` at every interior point. | C87_segment_copy_false: **Violation**: on the degree-0 segment element a copy of the stored left end node evaluates the constant solution 1 to `√2`, the stored node itself to 1. What is proved of it: C87_segment_value_partial: On a segment the value is off by the factor `√2`: the shape function scales the basis by 2 although `V` was scaled by `√2`. The other theorems listed prove the rest of the statement."
  },
  {
   "property": "C88",
   "status": "partial",
   "theorems": [
    "Verif.Sbp.C88_lookup_first",
    "Verif.Sbp.C88_lookup_throws",
    "Verif.Sbp.C88_lookup_node",
    "Verif.Sbp.C88_derivative_lookup_partial",
    "Verif.Sbp.C88_derivative_at_node",
    "Verif.Sbp.C88_derivative_off_node_false"
   ],
   "note": "The full statement does not hold of the code; its negation is proved: C88_derivative_off_node_false: **Violation**: at any point away from the nodes the derivative evaluation reads column `-1` of the operator (no exception, no value). What is proved of it: C88_derivative_lookup_partial: The derivative evaluation at a point that is not a stored node uses the first node within distance `1e-12` on a segment, but within distance `1e-6` on triangles and tetrahedra. The other theorems listed prove the rest of the statement."
  },
  {
   "property": "C89",
   "status": "partial",
   "theorems": [
    "Verif.Sbp.C89_derivative",
    "Verif.Sbp.C89_derivative_tri0",
    "Verif.Sbp.C89_row_sums",
    "Verif.Sbp.C89_weights_positive",
    "Verif.Sbp.C89_diagonal_boundary",
    "Verif.Sbp.C89_tri0_false",
    "Verif.Sbp.C89_segment",
    "Verif.Sbp.C89_quadrature"
   ],
   "note": "The full statement does not hold of the code; its negation is proved: C89_tri0_false: **Violation.** The degree-0 triangle's `Q + Q^T` has off-diagonal entries (about 1/6), so on the reference element itself (identity mapping) `getQEntry` does not return the operator: entry (2, 0) of the x operator is about -1/6 but `getQEntry` returns about -1/12.  The other theorems listed prove the rest of the statement."
  },
  {
   "property": "C90",
   "status": "partial",
   "theorems": [
    "Verif.Inviscid.C90_residual",
    "Verif.Inviscid.C90_functional",
    "Verif.Inviscid.C90_functional_measure",
    "Verif.Inviscid.C90_conservation",
    "Verif.Inviscid.C90_gradient_partial",
    "Verif.Inviscid.C90_gradient_any_states_false",
    "Verif.Inviscid.C90_gradient_more_states_false"
   ],
   "note": "The full statement does not hold of the code; its negation is proved: C90_gradient_any_states_false: The full property, for any number of states, is false: with one state in one dimension the loops of the gradient run over three states and so touch entries outside the `num_states*num_nodes` square matrix (here row 2 of a 2 x 2 matrix), which the exact Jacobian never has. | C90_gradient_more_states_false: With more than `dim + 2` states the coupling to the extra states is missing. What is proved of it: C90_gradient_partial: The assembled matrix is the exact Jacobian of the assembled residual when there are `dim + 2` states (the only case instantiated by the compressible-flow code). The other theorems listed prove the rest of the statement."
  },
  {
   "property": "C91",
   "status": "proved",
   "theorems": [
    "Verif.Inviscid.C91_residual",
    "Verif.Inviscid.C91_conservation",
    "Verif.Inviscid.C91_tested",
    "Verif.Inviscid.C91_entropy_balance",
    "Verif.Inviscid.C91_entropy_conservation",
    "Verif.Inviscid.C91_uniform"
   ],
   "note": "The residual is `alpha Σ_di Σ_j S_di(i,j) F_di(u_i, u_j)` for every two-point flux that is symmetric at the node pairs of the element."
  },
  {
   "property": "C92",
   "status": "proved",
   "theorems": [
    "Verif.Inviscid.C92_gradient"
   ],
   "note": "The assembled matrix is the exact Jacobian of the assembled residual, for every two-point flux with exact Jacobians at the element's node pairs."
  },
  {
   "property": "C93",
   "status": "partial",
   "theorems": [
    "Verif.Inviscid.C93_projected",
    "Verif.Inviscid.C93_tested",
    "Verif.Inviscid.C93_dissipation",
    "Verif.Inviscid.C93_conservation",
    "Verif.Inviscid.C93_consistency",
    "Verif.Inviscid.C93_gradient_value",
    "Verif.Inviscid.C93_gradient_partial",
    "Verif.Inviscid.C93_gradient_false"
   ],
   "note": "The full statement does not hold of the code; its negation is proved: C93_gradient_false: ... **but not otherwise**: the residual is multiplied by the LPS coefficient and the matrix is not, so for `lps-coeff = 2` (option `space-dis / lps-coeff` of the Euler solver) Newton's method is given half the true Jacobian. What is proved of it: C93_gradient_partial: Hence the matrix is the exact Jacobian when the LPS coefficient is 1 ... The other theorems listed prove the rest of the statement."
  },
  {
   "property": "C94",
   "status": "proved",
   "theorems": [
    "Verif.Inviscid.C94_residual",
    "Verif.Inviscid.C94_total_flux",
    "Verif.Inviscid.C94_energy",
    "Verif.Inviscid.C94_gradient"
   ],
   "note": "The residual at element node `a` is the quadrature of the flux over the face nodes that lie on `a`; other entries are zero."
  },
  {
   "property": "C95",
   "status": "partial",
   "theorems": [
    "Verif.Inviscid.C95_conservation",
    "Verif.Inviscid.C95_tested",
    "Verif.Inviscid.C95_energy",
    "Verif.Inviscid.C95_gradient_partial",
    "Verif.Inviscid.C95_gradient_negative_alpha_false"
   ],
   "note": "The full statement does not hold of the code; its negation is proved: C95_gradient_negative_alpha_false: **Violation for negative factors.** The residual is `alpha * flux(n)` but the matrix is the Jacobian of `flux(alpha * n)`: with `alpha = -1` and a dissipative (positively homogeneous) flux `|n| (a - b)` they have opposite signs. What is proved of it: C95_gradient_partial: The face matrix is the exact Jacobian of the face residual for `alpha ≥ 0` and every flux that is positively homogeneous in the normal. The other theorems listed prove the rest of the statement."
  },
  {
   "property": "C96",
   "status": "proved",
   "theorems": [
    "Verif.Inviscid.C96_residual",
    "Verif.Inviscid.C96_gradient"
   ],
   "note": "The mass matrix is the exact Jacobian of the mass residual, and is block diagonal in the nodes."
  },
  {
   "property": "C97",
   "status": "proved",
   "theorems": [
    "Verif.EulerInteg.C97_energy_is_tested_residual",
    "Verif.EulerInteg.C97_entropy_balance",
    "Verif.EulerInteg.C97_conservation",
    "Verif.EulerInteg.C97_variables_agree",
    "Verif.EulerInteg.C97_freestream"
   ],
   "note": "The element's reported entropy change is the residual tested with the entropy variables of the nodal states."
  },
  {
   "property": "C98",
   "status": "partial",
   "theorems": [
    "Verif.EulerInteg.C98_dissipation",
    "Verif.EulerInteg.C98_energy_is_tested_residual",
    "Verif.EulerInteg.C98_conservation",
    "Verif.EulerInteg.C98_freestream",
    "Verif.EulerInteg.C98_scaling_rows_partial",
    "Verif.EulerInteg.C98_scaling_rows_false"
   ],
   "note": "The full statement does not hold of the code; its negation is proved: C98_scaling_rows_false: For a sheared mapping it is not: the integrator passes the untransposed adjugate, so the spectral radii are taken over its columns. What is proved of it: C98_scaling_rows_partial: For a symmetric adjugate the scaling is the documented one. The other theorems listed prove the rest of the statement."
  },
  {
   "property": "C99",
   "status": "proved",
   "theorems": [
    "Verif.EulerInteg.C99_slipwall",
    "Verif.EulerInteg.C99_control",
    "Verif.EulerInteg.C99_entropy_conservative",
    "Verif.EulerInteg.C99_aliased_flux_differs",
    "Verif.EulerInteg.C99_energy"
   ],
   "note": "The slip wall adds exactly the entropy potential: no entropy is produced at the wall."
  },
  {
   "property": "C100",
   "status": "partial",
   "theorems": [
    "Verif.EulerInteg.C100_pressure_force",
    "Verif.EulerInteg.C100_entropy",
    "Verif.EulerInteg.C100_boundary_entropy_partial",
    "Verif.EulerInteg.C100_boundary_entropy_false",
    "Verif.EulerInteg.C100_supply_rate",
    "Verif.EulerInteg.C100_supply_rate_false",
    "Verif.EulerInteg.C100_control_supply_partial",
    "Verif.EulerInteg.C100_control_supply_false"
   ],
   "note": "The full statement does not hold of the code; its negation is proved: C100_boundary_entropy_false: In entropy variables it is wrong: the pressure is computed as if the entropy variables were conservative, so the same flow gives a different value. | C100_supply_rate_false: It is not the entropy the far-field boundary condition actually exchanges: the boundary condition uses a different flux. | C100_control_supply_false: So the supply-rate identity `dS = -control * boundary-entropy` is false whenever the wall pressure differs from the reference. What is proved of it: C100_boundary_entropy_partial: In conservative variables the boundary-entropy functional is the scaled entropy plus the scaled relative pressure. | C100_control_supply_partial: The entropy the control boundary injects is the control value times the boundary-entropy functional, except for the reference-pressure term the functional adds. The other theorems listed prove the rest of the statement."
  },
  {
   "property": "C101",
   "status": "proved",
   "theorems": [
    "Verif.EulerInteg.C101_dissipative",
    "Verif.EulerInteg.C101_conservative",
    "Verif.EulerInteg.C101_no_jump",
    "Verif.EulerInteg.C101_energy"
   ],
   "note": "With a non-negative dissipation coefficient an interface never produces entropy: the reported value is at least the jump of the potential, up to `1e-16` of the mass flux."
  },
  {
   "property": "C102",
   "status": "proved",
   "theorems": [
    "Verif.EulerInteg.C102_entropy_stability",
    "Verif.EulerInteg.C102_entropy_conservation",
    "Verif.EulerInteg.C102_continuous",
    "Verif.EulerInteg.C102_walls",
    "Verif.EulerInteg.C102_control"
   ],
   "note": "**Entropy stability, discontinuous elements.** For every conforming mesh, every physical state (in either set of variables), non-negative coefficients and every choice of boundary conditions, the entropy change reported by the flow residual is at least what the boundary conditions supply, up to `1e-16` of the mass fluxes. (`dS/dt` is minus the reported value.)"
  },
  {
   "property": "C103",
   "status": "proved",
   "theorems": [
    "Verif.Viscous.C103_navier_stokes_flux"
   ],
   "note": "Applied to the gradient of the entropy variables of any differentiable admissible flow field, the viscous scaling is the Navier–Stokes viscous flux, in every dimension."
  },
  {
   "property": "C104",
   "status": "proved",
   "theorems": [
    "Verif.Viscous.C104_blocks_symmetric",
    "Verif.Viscous.C104_symmetric",
    "Verif.Viscous.C104_dissipation",
    "Verif.Viscous.C104_dissipative",
    "Verif.Viscous.C104_null"
   ],
   "note": "The blocks returned by `applyCijMatrix` satisfy `C_ijᵀ = C_ji`."
  },
  {
   "property": "C105",
   "status": "proved",
   "theorems": [
    "Verif.Viscous.C105_sutherland",
    "Verif.Viscous.C105_freestream",
    "Verif.Viscous.C105_positive",
    "Verif.Viscous.C105_monotone",
    "Verif.Viscous.C105_ratio"
   ],
   "note": "The viscosity of the free stream is 1."
  },
  {
   "property": "C106",
   "status": "proved",
   "theorems": [
    "Verif.Viscous.C106_adiabatic_no_mass",
    "Verif.Viscous.C106_adiabatic_entropy_free",
    "Verif.Viscous.C106_adiabatic_consistent",
    "Verif.Viscous.C106_penalty_value",
    "Verif.Viscous.C106_penalty_dissipative",
    "Verif.Viscous.C106_wall_entropy_stable",
    "Verif.Viscous.C106_wall_impermeable",
    "Verif.Viscous.C106_wall_adiabatic",
    "Verif.Viscous.C106_dual_consistent"
   ],
   "note": "The adiabatic wall flux carries no mass."
  },
  {
   "property": "C107",
   "status": "partial",
   "theorems": [
    "Verif.Viscous.C107_zero_normal_derivative",
    "Verif.Viscous.C107_viscous_slip_wall",
    "Verif.Viscous.C107_inviscid_boundaries",
    "Verif.Viscous.C107_exact_boundary_partial",
    "Verif.Viscous.C107_exact_supersonic_outflow",
    "Verif.Viscous.C107_exact_boundary_false",
    "Verif.Viscous.C107_control_entropy",
    "Verif.Viscous.C107_control_off",
    "Verif.Viscous.C107_control_penalty"
   ],
   "note": "The full statement does not hold of the code; its negation is proved: C107_exact_boundary_false: **Violation**: with a normal derivative the \"exact\" boundary flux is *not* the exact normal flux. One-dimensional flow at rest with a temperature gradient: the heat flux is dropped. What is proved of it: C107_exact_boundary_partial: The exact-solution boundary is consistent when the normal derivatives of the solution vanish: at the exact state the flux is the inviscid flux minus the viscous one. The other theorems listed prove the rest of the statement."
  },
  {
   "property": "C108",
   "status": "proved",
   "theorems": [
    "Verif.Viscous.C108_force_is_wall_momentum",
    "Verif.Viscous.C108_force_physical"
   ],
   "note": "The surface-force functional is the projection on the force direction of the momentum part of the no-slip wall flux that the residual uses (so functional and residual are consistent)."
  },
  {
   "property": "C109",
   "status": "proved",
   "theorems": [
    "Verif.ViscousInteg.C109_gradient_value",
    "Verif.ViscousInteg.C109_uniform",
    "Verif.ViscousInteg.C109_linear_exact"
   ],
   "note": "The gradient handed to the viscous flux functions is the SBP derivative of the converted variables, for every state, curved mapping and number of nodes."
  },
  {
   "property": "C110",
   "status": "proved",
   "theorems": [
    "Verif.ViscousInteg.C110_weak_form",
    "Verif.ViscousInteg.C110_energy_is_tested_residual",
    "Verif.ViscousInteg.C110_dissipation",
    "Verif.ViscousInteg.C110_stable",
    "Verif.ViscousInteg.C110_conservation",
    "Verif.ViscousInteg.C110_uniform",
    "Verif.ViscousInteg.C110_gradient"
   ],
   "note": "**Weak form.** Testing the residual with any nodal vector `v` gives `alpha` times the quadrature of `Σ_d (D_d v) · C_d(u, Dw)`."
  },
  {
   "property": "C111",
   "status": "partial",
   "theorems": [
    "Verif.ViscousInteg.C111_functional",
    "Verif.ViscousInteg.C111_weak_form",
    "Verif.ViscousInteg.C111_energy_is_tested_residual",
    "Verif.ViscousInteg.C111_gradient_partial",
    "Verif.ViscousInteg.C111_gradient_alpha_false"
   ],
   "note": "The full statement does not hold of the code; its negation is proved: C111_gradient_alpha_false: The full property, for every `alpha`, is false: the matrix ignores `alpha`. With flux `F(q) = q` and `alpha = 2` the residual has slope 2, the matrix says 1. What is proved of it: C111_gradient_partial: **Boundary gradient, `alpha = 1`.** The assembled matrix is the exact Jacobian of the assembled boundary residual when `alpha = 1` (the value used by every caller). The other theorems listed prove the rest of the statement."
  },
  {
   "property": "C112",
   "status": "partial",
   "theorems": [
    "Verif.ViscousInteg.C112_gradient_partial",
    "Verif.ViscousInteg.C112_gradient_alpha_false"
   ],
   "note": "The full statement does not hold of the code; its negation is proved: C112_gradient_alpha_false: For other values of `alpha` (the constructor takes any) it is not: only one of the two terms is scaled. Two nodes, `F(q, Dw) = Dw`, `alpha = 2`. What is proved of it: C112_gradient_partial: With `alpha = 1` the assembled vector is the exact gradient of the surface-force functional with respect to every nodal state (through the wall state and through the gradient)."
  },
  {
   "property": "C113",
   "status": "partial",
   "theorems": [
    "Verif.NavierStokes.C113_weak_form",
    "Verif.NavierStokes.C113_energy",
    "Verif.NavierStokes.C113_dissipation",
    "Verif.NavierStokes.C113_entropy_stable",
    "Verif.NavierStokes.C113_no_mass_diffusion",
    "Verif.NavierStokes.C113_conservation",
    "Verif.NavierStokes.C113_uniform",
    "Verif.NavierStokes.C113_exact_flux",
    "Verif.NavierStokes.C113_entropy_variables_false"
   ],
   "note": "The full statement does not hold of the code; its negation is proved: C113_entropy_variables_false: **Entropy variables: refuted.** When the residual's variables are the entropy variables the viscous term should be that of the same flow. It is not: the vector is read as if it were conservative, and in the example (unit density, pressures 1 and 4) even the direction of the heat flux is wrong.  The other theorems listed prove the rest of the statement."
  },
  {
   "property": "C114",
   "status": "proved",
   "theorems": [
    "Verif.NavierStokes.C114_farfield_energy",
    "Verif.NavierStokes.C114_entropy_stability",
    "Verif.NavierStokes.C114_walls"
   ],
   "note": "The energy of a far-field face in either set of variables: the entropy variables of the nodal state (the stored values themselves if the solver works in entropy variables) tested with the boundary flux of the conservative state."
  },
  {
   "property": "C115",
   "status": "partial",
   "theorems": [
    "Verif.FlowSetup.C115_cfl_condition",
    "Verif.FlowSetup.C115_largest",
    "Verif.FlowSetup.C115_positive",
    "Verif.FlowSetup.C115_partition",
    "Verif.FlowSetup.C115_entvars",
    "Verif.FlowSetup.C115_step_from_last_evaluation",
    "Verif.FlowSetup.C115_control_solver",
    "Verif.FlowSetup.C115_overshoot_bounded",
    "Verif.FlowSetup.C115_current_state_false",
    "Verif.FlowSetup.C115_exact_final_time_false"
   ],
   "note": "The full statement does not hold of the code; its negation is proved: C115_current_state_false: **Refuted for the flow solver.** With forward Euler the second step ignores that the gas has become twice as fast: it is twice the CFL step of the state it starts from. | C115_exact_final_time_false: **Refuted: `t-final` is not respected** (nor `exact-t-final`, which is not consulted): a run to time `3/2` with CFL step 1 ends at time 2.  The other theorems listed prove the rest of the statement."
  },
  {
   "property": "C116",
   "status": "partial",
   "theorems": [
    "Verif.FlowSetup.C116_wind_axes",
    "Verif.FlowSetup.C116_recovers_force",
    "Verif.FlowSetup.C116_axes_checked_false",
    "Verif.FlowSetup.C116_axes_checked_3d"
   ],
   "note": "The full statement does not hold of the code; its negation is proved: C116_axes_checked_false: **Refuted: accepted axes exist.** The option check allows axis 2 in two dimensions, and the drag direction is then written outside its vector.  The other theorems listed prove the rest of the statement."
  },
  {
   "property": "C117",
   "status": "partial",
   "theorems": [
    "Verif.FlowSetup.C117_attached",
    "Verif.FlowSetup.C117_rejected_iff",
    "Verif.FlowSetup.C117_order_irrelevant",
    "Verif.FlowSetup.C117_all_applied_false",
    "Verif.FlowSetup.C117_all_applied_viscous_false",
    "Verif.FlowSetup.C117_solver_accepts",
    "Verif.FlowSetup.C117_integrators_accepted",
    "Verif.FlowSetup.C117_unknown_flux_false",
    "Verif.FlowSetup.C117_pump_state_2d",
    "Verif.FlowSetup.C117_pump_state_false"
   ],
   "note": "The full statement does not hold of the code; its negation is proved: C117_all_applied_false: **Refuted: every boundary condition asked for is applied, or set-up fails.** A condition that exists only for the other flow model (or a misspelt key) is dropped without a diagnostic, and its boundary gets no integrator. | C117_all_applied_viscous_false: The converse direction for the viscous solver. | C117_unknown_flux_false | C117_pump_state_false: **Refuted in one and three dimensions.** The pump lambda always writes entries 0..3: out of bounds for `dim = 1`, and for `dim = 3` the energy is left unset while the third momentum gets the energy.  The other theorems listed prove the rest of the statement."
  },
  {
   "property": "C118",
   "status": "proved",
   "theorems": [
    "Verif.FlowSetup.C118_value",
    "Verif.FlowSetup.C118_entry",
    "Verif.FlowSetup.C118_sum_of_entries",
    "Verif.FlowSetup.C118_zero_iff",
    "Verif.FlowSetup.C118_entvars",
    "Verif.FlowSetup.C118_triangle"
   ],
   "note": "**Value.** With nonnegative weights the reported error is nonnegative and its square is the quadrature of the squared distance between the *conservative* states, whatever the working variables."
  },
  {
   "property": "C119",
   "status": "proved",
   "theorems": [
    "Verif.FlowSetup.C119_entries",
    "Verif.FlowSetup.C119_quadratic_form",
    "Verif.FlowSetup.C119_positive_definite",
    "Verif.FlowSetup.C119_volume",
    "Verif.FlowSetup.C119_local_step"
   ],
   "note": "**Entries.** Row `i + k nn`, column `j + l nn` (state `k` at node `i`, state `l` at node `j`) of the element mass matrix is the node's weight on the diagonal and zero elsewhere: no coupling between nodes or states."
  },
  {
   "property": "C120",
   "status": "partial",
   "theorems": [
    "Verif.FlowSetup.C120_gaussian",
    "Verif.FlowSetup.C120_decreasing",
    "Verif.FlowSetup.C120_control_2d",
    "Verif.FlowSetup.C120_every_dim_false",
    "Verif.FlowSetup.C120_defined_iff"
   ],
   "note": "The full statement does not hold of the code; its negation is proved: C120_every_dim_false: **Refuted: the control boundary works in every supported dimension.** Its centre has two coordinates whatever the mesh dimension.  The other theorems listed prove the rest of the statement."
  },
  {
   "property": "C121",
   "status": "partial",
   "theorems": [
    "Verif.Diffusion.C121_weak_form",
    "Verif.Diffusion.C121_constants",
    "Verif.Diffusion.C121_coercive",
    "Verif.Diffusion.C121_monotone",
    "Verif.Diffusion.C121_jacobian_partial",
    "Verif.Diffusion.C121_symmetric",
    "Verif.Diffusion.C121_jacobian_psd",
    "Verif.Diffusion.C121_energy",
    "Verif.Diffusion.C121_jacobian_small_false"
   ],
   "note": "The full statement does not hold of the code; its negation is proved: C121_jacobian_small_false: The Jacobian is not the derivative where the gradient is nonzero but below the guard. What is proved of it: C121_jacobian_partial: **Jacobian.** The matrix `AssembleElementGrad` returns is the derivative of the residual in every direction, at every state whose gradient is zero or not tiny (`> 1e-14` before the mapping) at each quadrature point. The other theorems listed prove the rest of the statement."
  },
  {
   "property": "C122",
   "status": "partial",
   "theorems": [
    "Verif.Diffusion.C122_mesh_sensitivity_partial",
    "Verif.Diffusion.C122_same_rule",
    "Verif.Diffusion.C122_rule_false"
   ],
   "note": "The full statement does not hold of the code; its negation is proved: C122_rule_false: **Violation.** On refined tensor-product (`rQk`) elements the mesh sensitivity is assembled with a different rule than the residual. What is proved of it: C122_mesh_sensitivity_partial: **Mesh sensitivity.** Provided residual and sensitivity use the same quadrature points, the vector the mesh-sensitivity integrator assembles, multiplied with any motion of the mesh nodes, is the derivative of the adjoint-weighted residual under that motion - at every state whose gradient is zero or not tiny at each quadrature point. The other theorems listed prove the rest of the statement."
  },
  {
   "property": "C123",
   "status": "proved",
   "theorems": [
    "Verif.Diffusion.C123_first_derivative",
    "Verif.Diffusion.C123_second_derivative",
    "Verif.Diffusion.C123_field_intensity",
    "Verif.Diffusion.C123_positive"
   ],
   "note": "**First derivative.** `calcMagneticEnergyDot` is the derivative of `calcMagneticEnergy` in the flux magnitude, for every segment rule and every differentiable reluctivity."
  },
  {
   "property": "C124",
   "status": "partial",
   "theorems": [
    "Verif.DGDiffusion.C124_weak_form",
    "Verif.DGDiffusion.C124_consistent",
    "Verif.DGDiffusion.C124_total",
    "Verif.DGDiffusion.C124_lower_bound",
    "Verif.DGDiffusion.C124_jacobian_partial",
    "Verif.DGDiffusion.C124_jacobian_false",
    "Verif.DGDiffusion.C124_symmetric"
   ],
   "note": "The full statement does not hold of the code; its negation is proved: C124_jacobian_false: For a diffusivity that depends on position the Jacobian is wrong: the code evaluates the derivative of the model at the coordinates of the face point, interpreted in the element. What is proved of it: C124_jacobian_partial: **Jacobian.** The matrix returned by `AssembleFaceGrad` is the derivative of the residual in every direction, for diffusivities whose derivative is the same at the face point (where the code evaluates it) as at the element point. The other theorems listed prove the rest of the statement."
  },
  {
   "property": "C125",
   "status": "partial",
   "theorems": [
    "Verif.DGDiffusion.C125_weak_form",
    "Verif.DGDiffusion.C125_conservative",
    "Verif.DGDiffusion.C125_consistent",
    "Verif.DGDiffusion.C125_constants",
    "Verif.DGDiffusion.C125_lower_bound",
    "Verif.DGDiffusion.C125_orientation",
    "Verif.DGDiffusion.C125_jacobian_partial",
    "Verif.DGDiffusion.C125_symmetric",
    "Verif.DGDiffusion.C125_jacobian_false"
   ],
   "note": "The full statement does not hold of the code; its negation is proved: C125_jacobian_false: For a diffusivity that depends on position the interface Jacobian is wrong: the code evaluates the derivative of the model at the coordinates of the face point. What is proved of it: C125_jacobian_partial: **Jacobian.** The matrix `AssembleFaceGrad` returns is the derivative of both parts of the interface residual with respect to both elements' states, in every direction, for diffusivities whose derivative is the same at the face point (where the code evaluates it) as at the element points. The other theorems listed prove the rest of the statement."
  },
  {
   "property": "C126",
   "status": "partial",
   "theorems": [
    "Verif.DGDiffusion.C126_boundary_partial",
    "Verif.DGDiffusion.C126_boundary_zero_gradient_false",
    "Verif.DGDiffusion.C126_rule_partial",
    "Verif.DGDiffusion.C126_rule_false",
    "Verif.DGDiffusion.C126_interior"
   ],
   "note": "The full statement does not hold of the code; its negation is proved: C126_boundary_zero_gradient_false: **Violation.** Where the gradient vanishes at a face point (for instance in a uniform state) the mesh sensitivity of the boundary terms is not a number: the division by the norm is not guarded. | C126_rule_false: **Violation**: on tensor-product elements residual and mesh sensitivity use rules of different order. What is proved of it: C126_boundary_partial: **Mesh sensitivity of the boundary terms.** For a constant boundary value and a diffusivity that does not depend on position, if the gradient does not vanish at any face point, the assembled vector multiplied with any motion of the mesh nodes is the derivative of the adjoint-weighted residual. | C126_rule_partial: The boundary sensitivity uses the residual's quadrature rule on simplices only. The other theorems listed prove the rest of the statement."
  },
  {
   "property": "C127",
   "status": "proved",
   "theorems": [
    "Verif.Losses.C127_value",
    "Verif.Losses.C127_forward_scalar",
    "Verif.Losses.C127_reverse_scalar",
    "Verif.Losses.C127_forward_mesh",
    "Verif.Losses.C127_reverse_mesh",
    "Verif.Losses.C127_forward_temperature",
    "Verif.Losses.C127_reverse_temperature",
    "Verif.Losses.C127_other"
   ],
   "note": "**C127** The value is the loss formula."
  },
  {
   "property": "C128",
   "status": "partial",
   "theorems": [
    "Verif.Losses.C128_value",
    "Verif.Losses.C128_reverse_scalar",
    "Verif.Losses.C128_forward_scalar_partial",
    "Verif.Losses.C128_forward_frequency_partial",
    "Verif.Losses.C128_forward_frequency_false",
    "Verif.Losses.C128_forward_mesh",
    "Verif.Losses.C128_reverse_mesh",
    "Verif.Losses.C128_forward_field",
    "Verif.Losses.C128_reverse_field"
   ],
   "note": "The full statement does not hold of the code; its negation is proved: C128_forward_frequency_false: **C128** (negation) So the forward derivative with respect to the frequency is *not* the derivative of the loss whenever the radius is not one and the loss does not vanish. What is proved of it: C128_forward_scalar_partial: **C128** (partial) The forward derivative with respect to every scalar input other than the frequency is the derivative of the loss. | C128_forward_frequency_partial: **C128** The forward derivative with respect to the frequency is too large by the factor `1 / r`: multiplied by the strand radius it is the derivative of the loss. The other theorems listed prove the rest of the statement."
  },
  {
   "property": "C129",
   "status": "proved",
   "theorems": [
    "Verif.Losses.C129_dc_value",
    "Verif.Losses.C129_dc_temperature",
    "Verif.Losses.C129_dc_mesh",
    "Verif.Losses.C129_ac_value",
    "Verif.Losses.C129_ac_temperature",
    "Verif.Losses.C129_ac_flux",
    "Verif.Losses.C129_ac_mesh"
   ],
   "note": "**C129** The DC element integral is `∫ 1/σ(T)` by quadrature."
  },
  {
   "property": "C130",
   "status": "partial",
   "theorems": [
    "Verif.Losses.C130_dc_value",
    "Verif.Losses.C130_dc_scalar",
    "Verif.Losses.C130_dc_temperature",
    "Verif.Losses.C130_dc_mesh_partial",
    "Verif.Losses.C130_ac_value",
    "Verif.Losses.C130_ac_scalar",
    "Verif.Losses.C130_ac_temperature",
    "Verif.Losses.C130_ac_flux",
    "Verif.Losses.C130_ac_mesh_partial",
    "Verif.Losses.C130_dc_mesh_false",
    "Verif.Losses.C130_output_mesh"
   ],
   "note": "The full statement does not hold of the code; its negation is proved: C130_dc_mesh_false: **C130** (negation) If the conductivity does change with the mesh, the mesh sensitivities of the distributions are wrong: with one point whose Jacobian stays 1 while the conductivity grows, the reverse sensitivity is zero but the load changes. What is proved of it: C130_dc_mesh_partial: **C130** (partial) The mesh reverse sensitivity of the DC loss distribution is the derivative of the adjoint-weighted load if the conductivity does not depend on the position of the mesh nodes. | C130_ac_mesh_partial: **C130** (partial) The mesh reverse sensitivity of the AC loss distribution is the derivative of the adjoint-weighted load if neither the conductivity nor the flux shape functions depend on the position of the mesh nodes. The other theorems listed prove the rest of the statement."
  },
  {
   "property": "C131",
   "status": "proved",
   "theorems": [
    "Verif.Losses.C131_dc_total",
    "Verif.Losses.C131_ac_total",
    "Verif.Losses.C131_rules"
   ],
   "note": "**C131** The total heat of the DC distribution over the winding is the value of the DC loss functional divided by the stack length, for any mesh, if both use the same quadrature points."
  },
  {
   "property": "C132",
   "status": "partial",
   "theorems": [
    "Verif.Force.C132_virtual_work_2d_partial",
    "Verif.Force.C132_virtual_work_3d_partial",
    "Verif.Force.C132_finite",
    "Verif.Force.C132_zero_flux",
    "Verif.Force.C132_zero_flux_false"
   ],
   "note": "The full statement does not hold of the code; its negation is proved: C132_zero_flux_false: **C132** is false as stated: in the field-free state the magnetic energy does not depend on the displacement - its derivative is zero - but the force the code computes is not a number, for every element outside the body with at least one quadrature point and every virtual displacement that counts. What is proved of it: C132_virtual_work_2d_partial: **C132** On a two-dimensional element of positive orientation, with non-zero flux density at every quadrature point, the value computed is minus the derivative of the element's magnetic energy along the virtual displacement of its nodes, at fixed potential coefficients. (Missing: displacements below `1e-14`, which are treated as zero, and points of zero flux density, where the code divides by zero.) | C132_virtual_work_3d_partial: **C132** The same in three dimensions. The other theorems listed prove the rest of the statement."
  },
  {
   "property": "C133",
   "status": "partial",
   "theorems": [
    "Verif.Force.C133_state_gradient_partial"
   ],
   "note": "What is proved of it: C133_state_gradient_partial: **C133** The assembled state derivative is the gradient of the element's force contribution with respect to the state coefficients - in two and three dimensions, for body elements, ignored displacements, and all others with non-zero flux density at every quadrature point. (Missing: points of zero flux density, where the code divides by zero.)"
  },
  {
   "property": "C134",
   "status": "partial",
   "theorems": [
    "Verif.Force.C134_mesh_sensitivity_partial"
   ],
   "note": "What is proved of it: C134_mesh_sensitivity_partial: **C134** The assembled mesh sensitivity, multiplied with any motion of the mesh nodes, is the derivative of the element's force contribution under that motion (virtual displacement and state held fixed) - in two and three dimensions. (Missing: points of zero flux density, where the code divides by zero.)"
  },
  {
   "property": "C135",
   "status": "proved",
   "theorems": [
    "Verif.Force.C135_linear",
    "Verif.Force.C135_rigid_2d",
    "Verif.Force.C135_rigid_3d",
    "Verif.Force.C135_torque_field",
    "Verif.Force.C135_torque_plane",
    "Verif.Force.C135_axis_direction",
    "Verif.Force.C135_torque_rigid_3d",
    "Verif.Force.C135_torque_rigid_2d",
    "Verif.Force.C135_projection",
    "Verif.Force.C135_still"
   ],
   "note": "**C135** The force is linear in the virtual displacement, as long as none of the displacements is below the `1e-14` threshold."
  },
  {
   "property": "C136",
   "status": "proved",
   "theorems": [
    "Verif.CurlCurl.C136_weak_form",
    "Verif.CurlCurl.C136_gauge",
    "Verif.CurlCurl.C136_coercive",
    "Verif.CurlCurl.C136_monotone",
    "Verif.CurlCurl.C136_energy"
   ],
   "note": "**C136** Weak form: the element residual tested with `ψ` is the quadrature of `ν(|B|) B·curl ψ` with `B = curl A`."
  },
  {
   "property": "C137",
   "status": "partial",
   "theorems": [
    "Verif.CurlCurl.C137_jacobian_partial",
    "Verif.CurlCurl.C137_symmetric",
    "Verif.CurlCurl.C137_jacobian_psd",
    "Verif.CurlCurl.C137_nullspace",
    "Verif.CurlCurl.C137_state_sens_partial",
    "Verif.CurlCurl.C137_mesh_sensitivity_partial",
    "Verif.CurlCurl.C137_mesh_alpha_false"
   ],
   "note": "The full statement does not hold of the code; its negation is proved: C137_mesh_alpha_false: **C137, violation** The mesh sensitivity ignores `alpha`: for `alpha = 2` it is not the derivative of the adjoint-weighted residual. What is proved of it: C137_jacobian_partial: **C137** The element matrix is the derivative of the element residual in every direction, at every state whose flux density at each quadrature point is zero or above `1e-14` in magnitude. | C137_state_sens_partial: **C137** The forward state sensitivity is the directional derivative of the residual; the reverse one is its transpose. | C137_mesh_sensitivity_partial: **C137** Mesh sensitivity: with `alpha = 1` (the only value the residual uses), at every state with non-zero flux density at each quadrature point, the assembled vector multiplied with any motion of the mesh nodes is the derivative of the adjoint-weighted residual under that motion. The other theorems listed prove the rest of the statement."
  },
  {
   "property": "C138",
   "status": "partial",
   "theorems": [
    "Verif.MagSource.C138_value_2d",
    "Verif.MagSource.C138_value_3d",
    "Verif.MagSource.C138_state_gradient_partial",
    "Verif.MagSource.C138_residual_is_gradient_2d",
    "Verif.MagSource.C138_residual_is_gradient_3d",
    "Verif.MagSource.C138_mesh_sensitivity_partial",
    "Verif.MagSource.C138_force_is_energy_derivative_partial",
    "Verif.MagSource.C138_rule_false"
   ],
   "note": "The full statement does not hold of the code; its negation is proved: C138_rule_false: **C138, violation** Residual and energy are assembled with different default quadrature rules on triangles (and the same or different ones elsewhere), so that the residual assembled by the code is not in general the gradient of the energy output. What is proved of it: C138_state_gradient_partial: **C138** The state gradient is the gradient of the energy with respect to the potential, at every state with non-zero flux density at each quadrature point (where it is zero the code divides by zero). | C138_mesh_sensitivity_partial: **C138** Multiplied with any motion of the mesh nodes, the mesh sensitivity is the derivative of the energy under that motion (two and three dimensions, non-zero flux density at each point). | C138_force_is_energy_derivative_partial: **C138** The force output is minus the derivative of the energy output along the virtual displacement of the nodes, on the same quadrature points. The other theorems listed prove the rest of the statement."
  },
  {
   "property": "C139",
   "status": "partial",
   "theorems": [
    "Verif.MagSource.C139_weak_form",
    "Verif.MagSource.C139_no_net_current",
    "Verif.MagSource.C139_total_weak_form",
    "Verif.MagSource.C139_magnet_constant_reluctivity",
    "Verif.MagSource.C139_magnet_reluctivity_false",
    "Verif.MagSource.C139_temperature_sensitivity",
    "Verif.MagSource.C139_coefficient_derivative",
    "Verif.MagSource.C139_mesh_sensitivity"
   ],
   "note": "The full statement does not hold of the code; its negation is proved: C139_magnet_reluctivity_false: **C139, violation** With a reluctivity that depends on the flux density the residual of a magnet is not `∫ ν(|B|) (B - M)·curl ψ`: the code evaluates the reluctivity in the source at the temperature instead of the flux density.  The other theorems listed prove the rest of the statement."
  },
  {
   "property": "C140",
   "status": "partial",
   "theorems": [
    "Verif.MatCoeffs.C140_value",
    "Verif.MatCoeffs.C140_finite_iff",
    "Verif.MatCoeffs.C140_reference_values",
    "Verif.MatCoeffs.C140_nonneg",
    "Verif.MatCoeffs.C140_temperature_derivative",
    "Verif.MatCoeffs.C140_frequency_derivative",
    "Verif.MatCoeffs.C140_flux_derivative_partial",
    "Verif.MatCoeffs.C140_flux_derivative_false",
    "Verif.MatCoeffs.C140_zero_flux_value_false",
    "Verif.MatCoeffs.C140_second_derivatives_partial"
   ],
   "note": "The full statement does not hold of the code; its negation is proved: C140_flux_derivative_false: **C140** (counterexample) At zero flux density the flux derivative of every CAL2 coefficient is not finite (`0 * pow(0, -1)`), although the coefficient is a polynomial there: the property that `EvalDerivS3` is the derivative of `Eval` for every flux density is false. | C140_zero_flux_value_false: **C140** (counterexample) A fit without constant term has no finite value at zero flux density. What is proved of it: C140_flux_derivative_partial: **C140** (partial) `EvalDerivS3` is the derivative with respect to the flux density - for a nonzero flux density. | C140_second_derivatives_partial: **C140** (partial) The second derivatives are the derivatives of the first ones, for a nonzero flux density: temperature-temperature, flux-flux, and the mixed one from both sides. The other theorems listed prove the rest of the statement."
  },
  {
   "property": "C141",
   "status": "proved",
   "theorems": [
    "Verif.MatCoeffs.C141_value",
    "Verif.MatCoeffs.C141_sign",
    "Verif.MatCoeffs.C141_derivatives"
   ],
   "note": "**C141** The constraint value is the horizontal distance between the two branches of the demagnetization curve at the flux density `B`; it vanishes at the knee."
  },
  {
   "property": "C142",
   "status": "proved",
   "theorems": [
    "Verif.MatCoeffs.C142_conductivity",
    "Verif.MatCoeffs.C142_conductivity_decreasing",
    "Verif.MatCoeffs.C142_fluxes",
    "Verif.MatCoeffs.C142_consistent_with_constraint",
    "Verif.MatCoeffs.C142_remnant_defaults"
   ],
   "note": "**C142** The conductivity model: the resistivity is affine in the temperature with value `1/σ_ref` at the reference temperature and relative slope `α`; the returned derivatives are exact."
  },
  {
   "property": "C143",
   "status": "partial",
   "theorems": [
    "Verif.MatCoeffs.C143_lognu_positive",
    "Verif.MatCoeffs.C143_lognu_derivative_partial",
    "Verif.MatCoeffs.C143_lognu_continuous_iff",
    "Verif.MatCoeffs.C143_lognu_monotone_partial",
    "Verif.MatCoeffs.C143_lognu_false",
    "Verif.MatCoeffs.C143_bh_curve",
    "Verif.MatCoeffs.C143_bh_derivative_partial",
    "Verif.MatCoeffs.C143_bh_monotone_partial",
    "Verif.MatCoeffs.C143_bh_derivative_false"
   ],
   "note": "The full statement does not hold of the code; its negation is proved: C143_lognu_false: **C143** (counterexample) A `lognu` fit that ends above the reluctivity of vacuum - constant `log ν`, so all spline derivatives are exact - has a jump at the last knot and a field strength that decreases with the flux density there. | C143_bh_derivative_false: **C143** (counterexample) The `bh` derivative is not finite at zero flux density, and below `1e-14` it is not the derivative of the returned reluctivity (here `H(t) = t²`, `B_max = 1`). What is proved of it: C143_lognu_derivative_partial: **C143** (partial) The returned first and second derivatives of the `lognu` reluctivity are exact away from the last knot, given that the spline library differentiates correctly. | C143_lognu_monotone_partial: **C143** (partial) The `lognu` field strength `H = ν(B) B` does not decrease with `B` if `1 + B (log ν)' ≥ 0` up to the last knot and the fit ends at or below the reluctivity of vacuum; the magnetostatic residual is then a monotone operator. | C143_bh_derivative_partial: **C143** (partial) The returned derivative of the `bh` reluctivity is exact for every flux density above `1e-14` except at the last knot. | C143_bh_monotone_partial: **C143** (partial) Above `1e-14` the `bh` field strength does not decrease with the flux density, across the last knot too, if the fit does not decrease and ends at its last control point. The other theorems listed prove the rest of the statement."
  },
  {
   "property": "C144",
   "status": "partial",
   "theorems": [
    "Verif.MatCoeffs.C144_plain_construction",
    "Verif.MatCoeffs.C144_attr_form_false",
    "Verif.MatCoeffs.C144_attrs_form_partial",
    "Verif.MatCoeffs.C144_override",
    "Verif.MatCoeffs.C144_override_linear",
    "Verif.MatCoeffs.C144_library_ignored_false"
   ],
   "note": "The full statement does not hold of the code; its negation is proved: C144_attr_form_false: **C144** (counterexample) The CAL2, knee flux and demagnetization coefficients cannot be constructed if any component names its attribute with `attr`: the attempt ends in a JSON type error, a MISO exception or an abort - while the same components with `attrs` work. | C144_library_ignored_false: **C144** fails for magnets given by the name of their material only: the knee flux density and the demagnetisation constraint are the constant 0, whatever the library says about the material. What is proved of it: C144_attrs_form_partial: **C144** (partial) With `attrs` throughout, the successful construction of these coefficients gives each attribute the coefficient of its component. The other theorems listed prove the rest of the statement."
  },
  {
   "property": "C145",
   "status": "partial",
   "theorems": [
    "Verif.CoreLoss.C145_value",
    "Verif.CoreLoss.C145_nonneg",
    "Verif.CoreLoss.C145_frequency",
    "Verif.CoreLoss.C145_temperature",
    "Verif.CoreLoss.C145_flux",
    "Verif.CoreLoss.C145_mesh_partial",
    "Verif.CoreLoss.C145_zero_flux_false",
    "Verif.CoreLoss.C145_cal2",
    "Verif.CoreLoss.C145_mesh_false"
   ],
   "note": "The full statement does not hold of the code; its negation is proved: C145_zero_flux_false: **C145** (counterexample) With CAL2 coefficients, the peak-flux sensitivity of an element is not finite as soon as the flux density vanishes at one point, for every nonempty hysteresis fit. | C145_mesh_false: **C145** (negation) For a flux element whose shape functions are mapped with the Jacobian (map type INTEGRAL, shape `1 / J`) the mesh sensitivity has the wrong sign: stretching the element lowers its losses at the rate 1, and the reverse sensitivity is `+1`, because it leaves out the change of the shape functions. What is proved of it: C145_mesh_partial: **C145** (partial) The mesh sensitivity is the derivative of the integral along every motion of the mesh, if neither the shape functions nor the material depend on the position of the mesh nodes. The other theorems listed prove the rest of the statement."
  },
  {
   "property": "C146",
   "status": "partial",
   "theorems": [
    "Verif.CoreLoss.C146_value",
    "Verif.CoreLoss.C146_total",
    "Verif.CoreLoss.C146_rules",
    "Verif.CoreLoss.C146_frequency",
    "Verif.CoreLoss.C146_temperature",
    "Verif.CoreLoss.C146_flux",
    "Verif.CoreLoss.C146_mesh_partial",
    "Verif.CoreLoss.C146_heat_source",
    "Verif.CoreLoss.C146_mesh_false"
   ],
   "note": "The full statement does not hold of the code; its negation is proved: C146_mesh_false: **C146** (negation) In the same element the mesh reverse sensitivity of the heat distribution is `+1` while the tested load changes at the rate `-1`. What is proved of it: C146_mesh_partial: **C146** (partial) The mesh reverse sensitivity is the derivative of the tested load along every motion of the mesh, if neither the shape functions nor the material depend on the position of the mesh nodes. The other theorems listed prove the rest of the statement."
  },
  {
   "property": "C147",
   "status": "partial",
   "theorems": [
    "Verif.CoreLoss.C147_alternating",
    "Verif.CoreLoss.C147_value_partial",
    "Verif.CoreLoss.C147_value_false",
    "Verif.CoreLoss.C147_vector",
    "Verif.CoreLoss.C147_gradient_false"
   ],
   "note": "The full statement does not hold of the code; its negation is proved: C147_value_false: **C147** (counterexample) With an even number of points of equal weight a uniform constraint gives zero, whatever its value - a magnet demagnetized everywhere is reported like one at the limit; so the output is not minus the integral of the constraint. | C147_gradient_false: **C147** (counterexample) It is not the gradient of the output: for a constraint that does not depend on the flux the gradient is zero, the vector is not. What is proved of it: C147_value_partial: **C147** (partial) With a one-point rule (the default on linear triangles) the output is minus the integral of the constraint, as documented. The other theorems listed prove the rest of the statement."
  },
  {
   "property": "C148",
   "status": "partial",
   "theorems": [
    "Verif.OutForms.C148_value",
    "Verif.OutForms.C148_history",
    "Verif.OutForms.C148_sticky",
    "Verif.OutForms.C148_adjoint_partial",
    "Verif.OutForms.C148_one_dof_false",
    "Verif.OutForms.C148_scalar",
    "Verif.OutForms.C148_state_derivative_partial",
    "Verif.OutForms.C148_field_derivative",
    "Verif.OutForms.C148_state_name_false",
    "Verif.OutForms.C148_missing_state_false"
   ],
   "note": "The full statement does not hold of the code; its negation is proved: C148_one_dof_false: **C148** (counterexample) For a field with a single degree of freedom the forward product looks for a scalar of that name: the reverse product works, the forward one throws. | C148_state_name_false: **C148** (counterexample) For an output whose state has another name (the AC losses: `peak_flux`) the product with respect to `state` evaluates the gradient at the field `state`, which the value does not depend on: the value does not change with the input `state`, the reported derivative is not zero. | C148_missing_state_false: **C148** (counterexample) Without a state among the inputs the value is not that of the state supplied last: after a derivative has been requested it is the value at the gradient. What is proved of it: C148_adjoint_partial: **C148** (partial) Forward and reverse products are adjoint to each other - for `state`, and for every other field with more than one degree of freedom. | C148_state_derivative_partial: **C148** (partial) After the value has been computed, the product with respect to `state` is the derivative of the value with respect to the supplied state - for outputs whose state is called `state`. The other theorems listed prove the rest of the statement."
  },
  {
   "property": "C149",
   "status": "partial",
   "theorems": [
    "Verif.OutForms.C149_load",
    "Verif.OutForms.C149_reverse",
    "Verif.OutForms.C149_reverse_scalar_partial",
    "Verif.OutForms.C149_reverse_scalar_false",
    "Verif.OutForms.C149_forward_false"
   ],
   "note": "The full statement does not hold of the code; its negation is proved: C149_reverse_scalar_false: **C149** (counterexample) With a nonzero seed at an essential degree of freedom the scalar reverse product reports a derivative of a load that is not applied: here the load vector never changes. | C149_forward_false: **C149** (counterexample) The forward products of a load never report a derivative: whenever they return, the result vector is unchanged and the scalar product zero - so they are wrong for every load with a nonzero derivative. What is proved of it: C149_reverse_scalar_partial: **C149** (partial) The reverse product with respect to a scalar is the derivative of the seed-weighted load if the seed vanishes at the essential degrees of freedom. The other theorems listed prove the rest of the statement."
  },
  {
   "property": "C150",
   "status": "proved",
   "theorems": [
    "Verif.ThermalFaces.C150_contact_weak_form",
    "Verif.ThermalFaces.C150_contact_conservative",
    "Verif.ThermalFaces.C150_contact_dissipates",
    "Verif.ThermalFaces.C150_convection_weak_form",
    "Verif.ThermalFaces.C150_convection_dissipates",
    "Verif.ThermalFaces.C150_boundary_weak_form",
    "Verif.ThermalFaces.C150_boundary_monotone",
    "Verif.ThermalFaces.C150_equilibrium",
    "Verif.ThermalFaces.C150_outflux",
    "Verif.ThermalFaces.C150_interface_replaces"
   ],
   "note": "**Contact resistance.** Tested with `(ψ₁, ψ₂)` the residual is `α ∫ h (T₁ - T₂)(ψ₁ - ψ₂)`."
  },
  {
   "property": "C151",
   "status": "partial",
   "theorems": [
    "Verif.ThermalFaces.C151_contact",
    "Verif.ThermalFaces.C151_contact_spd",
    "Verif.ThermalFaces.C151_convection_partial",
    "Verif.ThermalFaces.C151_convection_false",
    "Verif.ThermalFaces.C151_boundary"
   ],
   "note": "The full statement does not hold of the code; its negation is proved: C151_convection_false: **Jacobian of the internal convection on curved faces is not the derivative of the residual**: the residual uses the rule of order `2 p + OrderW`, the Jacobian the one of order `2 p`. On the cubic edge above (`OrderW = 2`) with linear elements the derivative of the last residual in the direction of its unknown is 7/15 and the assembled entry gives 11/24. What is proved of it: C151_convection_partial: **Jacobian of the internal convection**, partial: it is the derivative of the residual on faces whose mapping adds nothing to the order of the rule (`ow = 0`, straight faces), because the residual and the Jacobian then use the same rule. The other theorems listed prove the rest of the statement."
  },
  {
   "property": "C152",
   "status": "partial",
   "theorems": [
    "Verif.ThermalFaces.C152_contact_h_partial",
    "Verif.ThermalFaces.C152_contact_h_false",
    "Verif.ThermalFaces.C152_convection_inputs",
    "Verif.ThermalFaces.C152_boundary_inputs",
    "Verif.ThermalFaces.C152_contact_mesh",
    "Verif.ThermalFaces.C152_convection_mesh_partial",
    "Verif.ThermalFaces.C152_convection_mesh_false",
    "Verif.ThermalFaces.C152_boundary_mesh"
   ],
   "note": "The full statement does not hold of the code; its negation is proved: C152_contact_h_false: **Sensitivity of the contact residual to `h` on curved faces is not exact**: it uses the rule of order `2 p + OrderW` and the residual the one of order `2 p`. | C152_convection_mesh_false: **Mesh sensitivity of the internal convection on curved faces is not exact**: stretching the cubic edge changes the tested residual at the rate 7/15 and the sensitivity says 11/24. What is proved of it: C152_contact_h_partial: **Sensitivity of the contact residual to `h`**, partial: exact on straight faces (`ow = 0`). | C152_convection_mesh_partial: **Mesh sensitivity of the internal convection**, partial: exact on straight faces (`ow = 0`). The other theorems listed prove the rest of the statement."
  },
  {
   "property": "C153",
   "status": "partial",
   "theorems": [
    "Verif.CommonInteg.C153_values",
    "Verif.CommonInteg.C153_seminorm",
    "Verif.CommonInteg.C153_gauge",
    "Verif.CommonInteg.C153_gradient_partial",
    "Verif.CommonInteg.C153_gradient_zero_flux_false",
    "Verif.CommonInteg.C153_mesh_sensitivity_partial",
    "Verif.CommonInteg.C153_mesh_zero_flux_false",
    "Verif.CommonInteg.C153_aggregate_bounds"
   ],
   "note": "The full statement does not hold of the code; its negation is proved: C153_gradient_zero_flux_false: **C153** One point with zero flux density - for instance the zero state every solve starts from - makes the whole vector NaN, for each of the three functionals. | C153_mesh_zero_flux_false: **C153** One point with zero flux density makes the mesh sensitivities NaN as well. What is proved of it: C153_gradient_partial: **C153** Derivative with respect to the potential: when the flux density is not zero at any quadrature point, the assembled vectors of the three functionals are the exact derivatives, in every direction. | C153_mesh_sensitivity_partial: **C153** Mesh sensitivity: when the flux density is not zero at any quadrature point, the assembled vectors multiplied with any motion of the mesh nodes are the derivatives of the three integrals under that motion. The other theorems listed prove the rest of the statement."
  },
  {
   "property": "C154",
   "status": "proved",
   "theorems": [
    "Verif.CommonInteg.C154_monotone",
    "Verif.CommonInteg.C154_above_average",
    "Verif.CommonInteg.C154_gap",
    "Verif.CommonInteg.C154_shift",
    "Verif.CommonInteg.C154_curl_aggregate",
    "Verif.CommonInteg.C154_mesh_sensitivity"
   ],
   "note": "**C154** The aggregate of a scalar state increases with the parameter `ρ`."
  },
  {
   "property": "C155",
   "status": "partial",
   "theorems": [
    "Verif.CommonInteg.C155_value",
    "Verif.CommonInteg.C155_mesh_sensitivity_partial",
    "Verif.CommonInteg.C155_null_coefficient_false",
    "Verif.CommonInteg.C155_fill_factor_vjp",
    "Verif.CommonInteg.C155_fill_factor_jvp_false"
   ],
   "note": "The full statement does not hold of the code; its negation is proved: C155_null_coefficient_false: **C155** With a pointer to a null coefficient the value is the volume but the sensitivity is zero: moving a vertex of the unit triangle changes its area at rate 1/2. | C155_fill_factor_jvp_false: **C155** Fill factor, forward mode: the result is the mass times the direction, not the derivative of the mass; for the volume, which does not depend on the fill factor, it is the volume times the direction. What is proved of it: C155_mesh_sensitivity_partial: **C155** Mesh sensitivity: for the volume (null pointer) and for a density, also one that depends on position (`s i t` after the motion; `sRev` returns the adjoint of its derivative), the assembled vector multiplied with any motion of the mesh nodes is the derivative of the integral. The other theorems listed prove the rest of the statement."
  },
  {
   "property": "C156",
   "status": "partial",
   "theorems": [
    "Verif.CommonInteg.C156_state_integral",
    "Verif.CommonInteg.C156_mesh_sensitivity",
    "Verif.CommonInteg.C156_state_average",
    "Verif.CommonInteg.C156_state_rules",
    "Verif.CommonInteg.C156_curl_average_partial",
    "Verif.CommonInteg.C156_curl_average_false"
   ],
   "note": "The full statement does not hold of the code; its negation is proved: C156_curl_average_false: **C156** On curved elements the average of `|B|` is wrong even where `|B|` is constant: a linear state on a quadratic element uses the one-point rule for the numerator (order `2p - 2 = 0`), which overestimates the area by 1/24 - whatever rule computes the area `4/3` exactly for the denominator (order `OrderW = 2`). What is proved of it: C156_curl_average_partial: **C156** The average of `|B|` on one element: where `|B|` has the value `c` at every point, the average is `c` exactly if the two rules agree on the volume of the element. The other theorems listed prove the rest of the statement."
  },
  {
   "property": "C157",
   "status": "proved",
   "theorems": [
    "Verif.CommonInteg.C157_value",
    "Verif.CommonInteg.C157_gradient",
    "Verif.CommonInteg.C157_rule"
   ],
   "note": "**C157** The functional is the quadrature of `-κ ∇T·n` over the boundary (`n` has the length of the area element)."
  },
  {
   "property": "C158",
   "status": "partial",
   "theorems": [
    "Verif.L2Transfer.C158_flux_density_3d",
    "Verif.L2Transfer.C158_flux_density_2d_partial",
    "Verif.L2Transfer.C158_flux_magnitude",
    "Verif.L2Transfer.C158_identity",
    "Verif.L2Transfer.C158_exact_when_representable",
    "Verif.L2Transfer.C158_direction_2d_false",
    "Verif.L2Transfer.C158_shared_nodes_false",
    "Verif.L2Transfer.C158_creation_false"
   ],
   "note": "The full statement does not hold of the code; its negation is proved: C158_direction_2d_false: **C158, violation** In two dimensions the output `flux_density` points against the flux density: here is an element of a magnet with remanent flux density `(4, -3)` whose residual vanishes for every test function - the flux density equals the remanent one, C139 - and whose reported flux density is `(-4, 3)`. | C158_shared_nodes_false: **C158, violation** The class accepts any output field. In a continuous one - the output `flux_magnitude` uses the field the user declared - a node shared by two elements gets the sum of their values instead of the value: here both elements have a flux density of magnitude 5. | C158_creation_false: **C158, violation** `createOutput(\"flux_density...\")` makes the field it needs; `createOutput(\"flux_magnitude...\")` throws unless a field of the same name is declared among the external fields. What is proved of it: C158_flux_density_2d_partial: **C158** Two dimensions: the entry is the component of the curl of `A_z e_z` with the opposite sign - right up to the direction. The other theorems listed prove the rest of the statement."
  },
  {
   "property": "C159",
   "status": "partial",
   "theorems": [
    "Verif.L2Transfer.C159_state_flux_density",
    "Verif.L2Transfer.C159_state_identity",
    "Verif.L2Transfer.C159_state_magnitude_partial",
    "Verif.L2Transfer.C159_magnitude_zero_flux_false",
    "Verif.L2Transfer.C159_mesh_flux_density",
    "Verif.L2Transfer.C159_mesh_magnitude_partial",
    "Verif.L2Transfer.C159_mesh_identity"
   ],
   "note": "The full statement does not hold of the code; its negation is proved: C159_magnitude_zero_flux_false: **C159, violation** One node with zero flux density makes the reverse products of the magnitude NaN, with respect to the state and to the mesh. What is proved of it: C159_state_magnitude_partial: **C159** The same for the magnitude, when the flux density is not zero at any node. | C159_mesh_magnitude_partial: **C159** The same for the magnitude, when the flux density is not zero at any node. The other theorems listed prove the rest of the statement."
  },
  {
   "property": "C160",
   "status": "partial",
   "theorems": [
    "Verif.Steady.C160_linearized",
    "Verif.Steady.C160_linear_problems",
    "Verif.Steady.C160_last_step_partial",
    "Verif.Steady.C160_warm_start_false",
    "Verif.Steady.C160_nonlinear_false",
    "Verif.Steady.C160_previous_design_false"
   ],
   "note": "The full statement does not hold of the code; its negation is proved: C160_warm_start_false: **C160, violation** Warm start: if the initial guess already solves the problem, a solver that holds no Jacobian returns from `solveForState` without assembling one, and `solveForAdjoint` throws. | C160_nonlinear_false: **C160, violation** Nonlinear problems: for `u³ - 4u = p` at `p = 0`, Newton's method from `u = -1` converges in one step to the exact solution `u = 2`, where `du/dp = 1/8`. The adjoint solve that follows uses the Jacobian at `u = -1`, and the total derivative of the output `u` comes out as `-1`: wrong by a factor of 8 and in sign. | C160_previous_design_false: **C160, violation** The adjoint belongs to whatever problem was linearised last. If the initial guess of a new solve already solves it (here `p u = 0` with `u = 0`), the Jacobian of the previous design stays: after solves at `p = 1` and `p = 2`, the adjoint for `state_bar = 1` at `p = 2` is `1` instead of `1/2`. What is proved of it: C160_last_step_partial: **C160 (partial)** In general the adjoint after a converged solve is that of the gradient at the iterate *before* the last Newton step: `solveForAdjoint` does not assemble a Jacobian. The other theorems listed prove the rest of the statement."
  },
  {
   "property": "C161",
   "status": "partial",
   "theorems": [
    "Verif.Steady.C161_converged",
    "Verif.Steady.C161_linear_one_step",
    "Verif.Steady.C161_linear_two_steps",
    "Verif.Steady.C161_boundary",
    "Verif.Steady.C161_one_iteration_false",
    "Verif.Steady.C161_silent_failure_false"
   ],
   "note": "The full statement does not hold of the code; its negation is proved: C161_one_iteration_false: **C161, violation** One iteration is not enough for a linear problem if the initial guess misses the boundary values: the Jacobian has lost its essential columns, so the correction ignores the change of the boundary values. With `maxiter = 1` the solve returns normally with the state `(3, 0)`, whose free residual is `-3`. | C161_silent_failure_false: **C161, violation** A solve whose Newton iteration does not converge is not reported: for `u³ - 2u + 2 = 0` from `u = 0`, exact linear solves, absolute tolerance 1/2 and *any* iteration limit, `solveForState` returns normally (the option `nonlin-solver.abort` is read nowhere), and the residual norm of what it returns is at least 1.  The other theorems listed prove the rest of the statement."
  },
  {
   "property": "C162",
   "status": "partial",
   "theorems": [
    "Verif.Steady.C162_session_files",
    "Verif.Steady.C162_final_state_false"
   ],
   "note": "The full statement does not hold of the code; its negation is proved: C162_final_state_false: **C162, violation** The logging option `final_state` has no effect on a steady solve: with it switched off the final state is written all the same.  The other theorems listed prove the rest of the statement."
  },
  {
   "property": "C163",
   "status": "partial",
   "theorems": [
    "Verif.Steady.C163_projected",
    "Verif.Steady.C163_fill_false",
    "Verif.Steady.C163_other_false"
   ],
   "note": "The full statement does not hold of the code; its negation is proved: C163_fill_false: **C163, violation** A function that fills the vector: it is called twice, and neither the state field nor the Dirichlet values of the solver change. Setting the state by adding one to every entry adds two; and whatever boundary values the solver held before, they differ from those of the state on some dof, for all but one of the states that could be set. | C163_other_false: **C163, violation** An object of any other type is ignored without an error.  The other theorems listed prove the rest of the statement."
  },
  {
   "property": "C164",
   "status": "partial",
   "theorems": [
    "Verif.Source.C164_directions",
    "Verif.Source.C164_rotation",
    "Verif.Source.C164_axis_false",
    "Verif.Source.C164_clockwise_false"
   ],
   "note": "The full statement does not hold of the code; its negation is proved: C164_axis_false: **C164, violation** On the axis of rotation the four of them are not a number. | C164_clockwise_false: **C164, violation** The names of the two tangential magnetizations are exchanged: \"cw\" turns counter-clockwise about the z axis (like the \"ring\" current), \"ccw\" clockwise, at every point.  The other theorems listed prove the rest of the statement."
  },
  {
   "property": "C165",
   "status": "proved",
   "theorems": [
    "Verif.Source.C165_reverse",
    "Verif.Source.C165_radial"
   ],
   "note": "**C165** Away from the axis, the reverse pass of every radial or tangential magnetization and of the ring current is the transposed derivative; the axis-aligned and the box sources have exact reverse passes everywhere."
  },
  {
   "property": "C166",
   "status": "partial",
   "theorems": [
    "Verif.Source.C166_divergence_free",
    "Verif.Source.C166_unit",
    "Verif.Source.C166_ring_axis_false",
    "Verif.Source.C166_racetrack"
   ],
   "note": "The full statement does not hold of the code; its negation is proved: C166_ring_axis_false: **C166, violation** The ring current is not a number on the axis.  The other theorems listed prove the rest of the statement."
  },
  {
   "property": "C167",
   "status": "partial",
   "theorems": [
    "Verif.Source.C167_field",
    "Verif.Source.C167_reversed",
    "Verif.Source.C167_smooth",
    "Verif.Source.C167_periodic",
    "Verif.Source.C167_continuous",
    "Verif.Source.C167_between_slots",
    "Verif.Source.C167_middle_false"
   ],
   "note": "The full statement does not hold of the code; its negation is proved: C167_middle_false: **C167, violation** On the middle plane of every slot the body carries no current at all: the direction is the zero vector, not a unit vector.  The other theorems listed prove the rest of the statement."
  },
  {
   "property": "C168",
   "status": "partial",
   "theorems": [
    "Verif.Source.C168_accept",
    "Verif.Source.C168_value",
    "Verif.Source.C168_derivative",
    "Verif.Source.C168_misspelt_false",
    "Verif.Source.C168_stateless_false"
   ],
   "note": "The full statement does not hold of the code; its negation is proved: C168_misspelt_false: **C168, violation** A misspelt direction is not reported: the magnet is silently left out, although its elements are still among those the load is integrated over. | C168_stateless_false: **C168, violation** The load of the three-dimensional problem evaluates the magnetization without the temperature field, i.e. at temperature zero: it is the magnetization of the material at the local temperature only if the magnet's remnant flux does not depend on it; with the default material data it is 1.878… T in place of 1.39 T at the reference temperature.  The other theorems listed prove the rest of the statement."
  },
  {
   "property": "C169",
   "status": "partial",
   "theorems": [
    "Verif.Py.C169_native",
    "Verif.Py.C169_alias",
    "Verif.Py.C169_rejected",
    "Verif.Py.C169_dangling_false",
    "Verif.Py.C169_one_dof_field_false",
    "Verif.Py.C169_numpy_scalar_false"
   ],
   "note": "The full statement does not hold of the code; its negation is proved: C169_dangling_false: **C169 is false for converted objects**: a list or an array of another type (of a length other than one) arrives as the address of memory that was released before the solver is called. | C169_one_dof_field_false: **C169 is false for fields of one dof**: an array of length one arrives as a number, which the code reading a field rejects. | C169_numpy_scalar_false: **C169 is false for numpy scalars**: they are rejected though the Python number of the same value is accepted.  The other theorems listed prove the rest of the statement."
  },
  {
   "property": "C170",
   "status": "partial",
   "theorems": [
    "Verif.Py.C170_result_arrives",
    "Verif.Py.C170_rejected",
    "Verif.Py.C170_lost_false"
   ],
   "note": "The full statement does not hold of the code; its negation is proved: C170_lost_false: **C170 is false for converted objects**: the call succeeds, and the user's object keeps its contents whatever was computed.  The other theorems listed prove the rest of the statement."
  },
  {
   "property": "C171",
   "status": "partial",
   "theorems": [
    "Verif.Py.C171_state_partial",
    "Verif.Py.C171_one_dof_false",
    "Verif.Py.C171_one_dof_witness_false",
    "Verif.Py.C171_scalar_forward_false"
   ],
   "note": "The full statement does not hold of the code; its negation is proved: C171_one_dof_false: **C171 is false for one dof**: the products with respect to the state add nothing, without an error, though the form's own products add `J w`. | C171_one_dof_witness_false: … concretely `u ↦ 3u`: the derivative in direction 1 is 3, the product stays 0. | C171_scalar_forward_false: **C171 is false for scalars**: with more than one dof, the forward derivative with respect to a registered scalar is silently zero; with respect to a field it throws. What is proved of it: C171_state_partial: **C171** With more than one dof the products with respect to the state are those of the form: they add `L w` and `Lᵀ r` for one and the same `L`, or throw together."
  },
  {
   "property": "C172",
   "status": "proved",
   "theorems": [
    "Verif.Py.C172_residual",
    "Verif.Py.C172_solve",
    "Verif.Py.C172_inverted"
   ],
   "note": "**C172** `apply_nonlinear` returns the residual of the inputs and outputs it is given, whatever was called before."
  },
  {
   "property": "C173",
   "status": "partial",
   "theorems": [
    "Verif.Py.C173_adjoint_partial",
    "Verif.Py.C173_zero_seed_false",
    "Verif.Py.C173_forward_false",
    "Verif.Py.C173_cached_inputs_false"
   ],
   "note": "The full statement does not hold of the code; its negation is proved: C173_zero_seed_false: **C173 is false for a zero seed**: `d_residuals` keeps whatever it held, in every state of the component; the adjoint is 0. | C173_forward_false: **C173 is false in forward mode**: an exception, or with `check_partials` `d_outputs` unchanged, whatever the linear system. | C173_cached_inputs_false: **C173 is false if the component is evaluated between `linearize` and `solve_linear`**: the cached inputs are references to the buffers, so the adjoint solve, while it uses the Jacobian of the old design, puts the *new* inputs in force: the products that follow are those of the new design. What is proved of it: C173_adjoint_partial: **C173** `linearize` on a solver that has not assembled a Jacobian, then a non-zero seed: `d_residuals` becomes the adjoint of the linearised problem, whatever it held before."
  },
  {
   "property": "C174",
   "status": "partial",
   "theorems": [
    "Verif.Py.C174_adjoint_partial",
    "Verif.Py.C174_thermal_load_false",
    "Verif.Py.C174_swallowed_false"
   ],
   "note": "The full statement does not hold of the code; its negation is proved: C174_thermal_load_false: **C174 is false for the thermal solver**: the product with respect to the load overwrites the accumulator, so in forward mode the contribution of the state is lost, for every Jacobian and all directions. | C174_swallowed_false: **C174 is false with `check_partials`**: an input whose product is not implemented ends the loop, and the contributions of the inputs after it are missing although theirs are implemented. What is proved of it: C174_adjoint_partial: **C174** If every product is implemented and adds, then — in spite of the shortcuts for zero seeds — the forward mode adds `y(d)` to `d_residuals`, the reverse mode adds `t` to the derivatives of state and inputs, and `⟨bar, y(d)⟩ = ⟨t, d⟩`: the two modes are adjoint, for any number of inputs of any sizes."
  },
  {
   "property": "C175",
   "status": "partial",
   "theorems": [
    "Verif.Py.C175_forward_partial",
    "Verif.Py.C175_forward_one_rank",
    "Verif.Py.C175_scalar_false",
    "Verif.Py.C175_reverse_partial",
    "Verif.Py.C175_vector_false",
    "Verif.Py.C175_vector_witness_false",
    "Verif.Py.C175_scalar_reverse",
    "Verif.Py.C175_scalar_reverse_false"
   ],
   "note": "The full statement does not hold of the code; its negation is proved: C175_scalar_false: **C175 is false for numbers on several ranks**: the forward product is the number of ranks times the derivative. | C175_vector_false: **C175 is false for vector outputs on several ranks** (each rank has its own entries): every rank gets the sum over the ranks, which is right exactly where the other ranks' parts cancel. | C175_vector_witness_false: … two ranks with different entries. | C175_scalar_reverse_false: **C175 is false for numbers in reverse mode on several ranks**: with the seed `b` on each of at least two ranks the increment is not the derivative times the seed. What is proved of it: C175_forward_partial: **C175** The forward product of a functional whose inputs are distributed is the directional derivative, on every rank and for any number of ranks and inputs. | C175_reverse_partial: **C175** The reverse mode is the adjoint of the forward mode for distributed inputs: the increments on all ranks paired with a direction give the total seed times the directional derivative. The other theorems listed prove the rest of the statement."
  },
  {
   "property": "C176",
   "status": "partial",
   "theorems": [
    "Verif.Py.C176_setup",
    "Verif.Py.C176_alias_false",
    "Verif.Py.C176_names",
    "Verif.Py.C176_names_only",
    "Verif.Py.C176_names_distinct",
    "Verif.Py.C176_field_shape",
    "Verif.Py.C176_misspelt_false"
   ],
   "note": "The full statement does not hold of the code; its negation is proved: C176_alias_false: **C176 is false for aliases**: one functional cannot be shown under two names, with different options, in one model. | C176_misspelt_false: … **but is false for misspelt names**: a name the solver does not know becomes an input of one number without complaint, and no integrator receives it.  The other theorems listed prove the rest of the statement."
  },
  {
   "property": "C177",
   "status": "partial",
   "theorems": [
    "Verif.Unsteady.C177_equation",
    "Verif.Unsteady.C177_history",
    "Verif.Unsteady.C177_explicit",
    "Verif.Unsteady.C177_implicit",
    "Verif.Unsteady.C177_relaxed_false"
   ],
   "note": "The full statement does not hold of the code; its negation is proved: C177_relaxed_false: **C177** With option \"relaxednewton\" no unsteady solve ever moves off its initial guess: the trial residuals do not depend on the trial point, so no step satisfies the decrease condition and the search returns 0. `ImplicitSolve` and `Mult` return `k = 0` (and report non-convergence unless `R(x)` itself meets the tolerance).  The other theorems listed prove the rest of the statement."
  },
  {
   "property": "C178",
   "status": "partial",
   "theorems": [
    "Verif.Unsteady.C178_forward_euler",
    "Verif.Unsteady.C178_rk4",
    "Verif.Unsteady.C178_midpoint_partial",
    "Verif.Unsteady.C178_ptc_partial",
    "Verif.Unsteady.C178_relaxed_false"
   ],
   "note": "The full statement does not hold of the code; its negation is proved: C178_relaxed_false: **C178** Hence with \"relaxednewton\" every time stepper returns the initial condition after any number of steps, the time advancing as if it had been integrated. What is proved of it: C178_midpoint_partial: **C178** Option \"MIDPOINT\" on an affine problem: `M (x' - x) = -dt R((x + x')/2)`. | C178_ptc_partial: **C178** Option \"PTC\" on an affine problem: backward Euler, `M (x' - x) = -dt R(x')`. The other theorems listed prove the rest of the statement."
  },
  {
   "property": "C179",
   "status": "partial",
   "theorems": [
    "Verif.Unsteady.C179_steady_equation_partial",
    "Verif.Unsteady.C179_steady_residual_partial",
    "Verif.Unsteady.C179_steady_false",
    "Verif.Unsteady.C179_dispatch"
   ],
   "note": "The full statement does not hold of the code; its negation is proved: C179_steady_false: **C179** So the \"steady\" stepper does not deliver a steady state, and leaves one it is given: `u' = 1 - u` from its steady state `u = 1` with `dt = 1` moves to `0`, where the residual is `-1`. What is proved of it: C179_steady_equation_partial: **C179** What the \"steady\" stepper solves: on an affine problem its new state `x'` satisfies `M x' + R(x + dt x') = 0`. | C179_steady_residual_partial: **C179** With a converged solve of an arbitrary problem, to the tolerance. The other theorems listed prove the rest of the statement."
  },
  {
   "property": "C180",
   "status": "partial",
   "theorems": [
    "Verif.Evolver.C180_system",
    "Verif.Evolver.C180_gradient_linear",
    "Verif.Evolver.C180_gradient_nonlinear",
    "Verif.Evolver.C180_gradient_false"
   ],
   "note": "The full statement does not hold of the code; its negation is proved: C180_gradient_false: **C180** Without a mass form the gradient is not the derivative: it lacks the factor `dt`.  The other theorems listed prove the rest of the statement."
  },
  {
   "property": "C181",
   "status": "partial",
   "theorems": [
    "Verif.Evolver.C181_implicit_linear",
    "Verif.Evolver.C181_essential_kept",
    "Verif.Evolver.C181_crash",
    "Verif.Evolver.C181_nonlinear_mass_false",
    "Verif.Evolver.C181_nonlinear_mass_partial"
   ],
   "note": "The full statement does not hold of the code; its negation is proved: C181_nonlinear_mass_false: **C181** With a nonlinear mass form the implicit stage is not backward Euler: the stage step is never passed, so the mass term is `N(x) - N(x - k)` whatever `dt`. For `(u²)' = 3` from `u = 1` with `dt = 1` the backward Euler slope is `k = 1`; the equation the code solves has no solution, and with the check for convergence enabled every call aborts, whatever the Newton solver. What is proved of it: C181_nonlinear_mass_partial: **C181** What is true with a nonlinear mass form: when `N` is affine, the stage step does not matter and the system is the backward Euler one. The other theorems listed prove the rest of the statement."
  },
  {
   "property": "C182",
   "status": "partial",
   "theorems": [
    "Verif.Evolver.C182_constructor",
    "Verif.Evolver.C182_explicit_partial",
    "Verif.Evolver.C182_essential_false",
    "Verif.Evolver.C182_history_false",
    "Verif.Evolver.C182_stiffness_false",
    "Verif.Evolver.C182_exceptions"
   ],
   "note": "The full statement does not hold of the code; its negation is proved: C182_essential_false: **C182** Essential dofs are not kept by the explicit operator: with mass and stiffness and no load the slope at an essential dof is minus the state there (identity mass matrix), so the prescribed value decays. | C182_history_false: **C182** Without a residual form the work vector is never cleared: after `q` calls at the same state it holds `junk + q (K x + load)`, so the result depends on the number of earlier calls (and on uninitialised memory). | C182_stiffness_false: **C182** The stiffness form plays no part in implicit stages. What is proved of it: C182_explicit_partial: **C182** `Mult` with a residual form, without essential boundaries: `M y = -(R(x) + K x + load)`, whatever was computed before. The other theorems listed prove the rest of the statement."
  },
  {
   "property": "C183",
   "status": "partial",
   "theorems": [
    "Verif.ProjInteg.C183_diffusion",
    "Verif.ProjInteg.C183_weak_divergence",
    "Verif.ProjInteg.C183_mass_partial",
    "Verif.ProjInteg.C183_mass_alpha_false",
    "Verif.ProjInteg.C183_rule_false",
    "Verif.ProjInteg.C183_mass_same_rule"
   ],
   "note": "The full statement does not hold of the code; its negation is proved: C183_mass_alpha_false: **C183, violation** With any other factor than `1` the mass sensitivity is wrong: on a growing triangle `alpha ∫ x·ψ` of fields mapped by `J⁻ᵀ` does not change in two dimensions, but the sensitivity reports `2 alpha - 2` (the weight term lacks the factor). | C183_rule_false: **C183, violation** The projector sets its quadrature rule on the two forms but not on their sensitivities: the orders differ for every degree, on simplices and (in three dimensions, on meshes of degree at least two) on tensor-product elements, so the product with respect to the mesh coordinates is that of forms integrated by another rule. What is proved of it: C183_mass_partial: **C183** The mass sensitivity, as the current load constructs it (`alpha = 1`), is the derivative of `ψᵀ M x = ∫ x·ψ`. The other theorems listed prove the rest of the statement."
  },
  {
   "property": "C184",
   "status": "partial",
   "theorems": [
    "Verif.ProjInteg.C184_vector_load",
    "Verif.ProjInteg.C184_curl_load",
    "Verif.ProjInteg.C184_scalar_load",
    "Verif.ProjInteg.C184_scalar_same_rule",
    "Verif.ProjInteg.C184_scalar_rule_false"
   ],
   "note": "The full statement does not hold of the code; its negation is proved: C184_scalar_rule_false: **C184, violation** ...but not on tensor-product elements (in any dimension).  The other theorems listed prove the rest of the statement."
  },
  {
   "property": "C185",
   "status": "proved",
   "theorems": [
    "Verif.ProjInteg.C185_irrotational_mesh",
    "Verif.ProjInteg.C185_divergence_free_mesh",
    "Verif.ProjInteg.C185_assembled_sensitivities"
   ],
   "note": "**C185** The product of `IrrotationalProjector` with respect to the mesh coordinates, times any motion `δ` of the mesh, is the derivative of `p̄·P(x)` under that motion, added to the caller's vector."
  },
  {
   "property": "C186",
   "status": "proved",
   "theorems": [
    "Verif.ProjInteg.C186_current_load_mesh",
    "Verif.ProjInteg.C186_assembled_sensitivities"
   ],
   "note": "**C186** The product of `CurrentLoad` with respect to the mesh coordinates, times any motion `δ` of the mesh, is the derivative of `l̄·(tv - load)` - what `addLoad` leaves in the residual - with the load recomputed on the moved mesh (mass matrix, linear form, projection)."
  },
  {
   "property": "C187",
   "status": "partial",
   "theorems": [
    "Verif.PdeSetup.C187_selected",
    "Verif.PdeSetup.C187_galerkin_difference",
    "Verif.PdeSetup.C187_unknown_false",
    "Verif.PdeSetup.C187_incomplete"
   ],
   "note": "The full statement does not hold of the code; its negation is proved: C187_unknown_false: **C187** fails for other names: a basis type that is no known spelling is not rejected, the field is silently built on a continuous H1 space.  The other theorems listed prove the rest of the statement."
  },
  {
   "property": "C188",
   "status": "proved",
   "theorems": [
    "Verif.PdeSetup.C188_copy"
   ],
   "note": "**C188** A field built on the space of another field (the mesh coordinates, the thermal load) has the same kind of space, of the same degree and dimension and with the same number of components: the degree and dimension read back from the collection's name are the original ones, for every degree and every dimension with one digit."
  },
  {
   "property": "C189",
   "status": "partial",
   "theorems": [
    "Verif.PdeSetup.C189_state_roundtrip",
    "Verif.PdeSetup.C189_dual_roundtrip",
    "Verif.PdeSetup.C189_copies_agree",
    "Verif.PdeSetup.C189_work",
    "Verif.PdeSetup.C189_work_distributed",
    "Verif.PdeSetup.C189_local_dual_false"
   ],
   "note": "The full statement does not hold of the code; its negation is proved: C189_local_dual_false: **C189** fails in the other direction for duals: distributing the assembled vector does not restore the ranks' contributions.  The other theorems listed prove the rest of the statement."
  },
  {
   "property": "C190",
   "status": "partial",
   "theorems": [
    "Verif.PdeSetup.C190_library",
    "Verif.PdeSetup.C190_component",
    "Verif.PdeSetup.C190_own_value_false",
    "Verif.PdeSetup.C190_flow_false"
   ],
   "note": "The full statement does not hold of the code; its negation is proved: C190_own_value_false: **C190** fails for each component on its own: materials are kept per material name, so a component's value is lost when a later component gives another value for the same material. | C190_flow_false: **C190** fails for solvers whose number of states depends on the mesh (the flow solvers): whatever their components say, their materials are the library's.  The other theorems listed prove the rest of the statement."
  },
  {
   "property": "C191",
   "status": "partial",
   "theorems": [
    "Verif.PdeSetup.C191_own_fields",
    "Verif.PdeSetup.C191_external",
    "Verif.PdeSetup.C191_no_others",
    "Verif.PdeSetup.C191_reserved_false",
    "Verif.PdeSetup.C191_sizes"
   ],
   "note": "The full statement does not hold of the code; its negation is proved: C191_reserved_false: **C191** fails for the solver's own names: declaring an external field called, say, \"adjoint\" is accepted and its options are silently ignored.  The other theorems listed prove the rest of the statement."
  },
  {
   "property": "C192",
   "status": "partial",
   "theorems": [
    "Verif.PdeSetup.C192_by_extension",
    "Verif.PdeSetup.C192_given_partial",
    "Verif.PdeSetup.C192_given_false"
   ],
   "note": "The full statement does not hold of the code; its negation is proved: C192_given_false: **C192** fails for names without a dot: the options' file name is checked even though it is not used. What is proved of it: C192_given_partial: **C192** A mesh handed over by the caller is used, whatever file the options name, as long as that name contains a dot. The other theorems listed prove the rest of the statement."
  },
  {
   "property": "C193",
   "status": "partial",
   "theorems": [
    "Verif.PdeSetup.C193_value",
    "Verif.PdeSetup.C193_zero_iff",
    "Verif.PdeSetup.C193_over_ranks_partial",
    "Verif.PdeSetup.C193_parallel_false"
   ],
   "note": "The full statement does not hold of the code; its negation is proved: C193_parallel_false: **C193** fails in parallel: with two ranks off by 3 and by 4, each rank returns its own part, none the norm 5 of the whole difference (the L2 error of a field, in contrast, is the same on all ranks). What is proved of it: C193_over_ranks_partial: **C193** holds per rank only: the root of the sum of the squares of the ranks' results is the norm of the whole difference. The other theorems listed prove the rest of the statement."
  },
  {
   "property": "C194",
   "status": "partial",
   "theorems": [
    "Verif.SolverSetup.C194_configured",
    "Verif.SolverSetup.C194_rest",
    "Verif.SolverSetup.C194_unsupported",
    "Verif.SolverSetup.C194_abstol_false"
   ],
   "note": "The full statement does not hold of the code; its negation is proved: C194_abstol_false: **C194** fails for the default solver: \"hyprefgmres\" ignores the absolute tolerance, whatever the options say.  The other theorems listed prove the rest of the statement."
  },
  {
   "property": "C195",
   "status": "partial",
   "theorems": [
    "Verif.SolverSetup.C195_flow",
    "Verif.SolverSetup.C195_multigrid_partial",
    "Verif.SolverSetup.C195_no_preconditioner_false",
    "Verif.SolverSetup.C195_warper_false",
    "Verif.SolverSetup.C195_adjoint_false"
   ],
   "note": "The full statement does not hold of the code; its negation is proved: C195_no_preconditioner_false: **C195** fails for \"hypreilu\" (the default) and for unknown names: magnetostatics and heat conduction silently solve without a preconditioner. | C195_warper_false: **C195** fails for the mesh warper: it ignores the requested type. | C195_adjoint_false: **C195** fails for adjoint solves: \"adj-prec\" has no influence, the adjoint solver uses the preconditioner of the forward solve. What is proved of it: C195_multigrid_partial: **C195** For magnetostatics and heat conduction only the multigrid names work. The other theorems listed prove the rest of the statement."
  },
  {
   "property": "C196",
   "status": "partial",
   "theorems": [
    "Verif.SolverSetup.C196_configured",
    "Verif.SolverSetup.C196_none_false",
    "Verif.SolverSetup.C196_abort_false",
    "Verif.SolverSetup.C196_adjoint_once"
   ],
   "note": "The full statement does not hold of the code; its negation is proved: C196_none_false: **C196** fails for \"none\", which is documented to skip the nonlinear solver: the null pointer is used while the solver is being built. | C196_abort_false: **C196** fails for \"abort\": the option has no effect.  The other theorems listed prove the rest of the statement."
  },
  {
   "property": "C197",
   "status": "proved",
   "theorems": [
    "Verif.Mms.C197_viscosity_must_match",
    "Verif.Mms.C197_exact_admissible",
    "Verif.Mms.C197_source_is_divergence",
    "Verif.Mms.C197_integrator_consistent"
   ],
   "note": "The source built with one viscosity is not the divergence of the flux with another one: with `viscous-mms` the option `mu` has to be 1."
  },
  {
   "property": "C198",
   "status": "partial",
   "theorems": [
    "Verif.Mms.C198_exact_reads_past_end_false",
    "Verif.Mms.C198_mass_momentum_partial",
    "Verif.Mms.C198_energy_false"
   ],
   "note": "The full statement does not hold of the code; its negation is proved: C198_exact_reads_past_end_false: The exact solution reads a fourth coordinate: at one and the same point it takes different values, depending on what stands in memory behind the point. | C198_energy_false: The energy source is not the divergence of the energy flux, whatever the viscosity and Prandtl number (the velocity component in the third direction was replaced by the third coordinate when the expression was generated). What is proved of it: C198_mass_momentum_partial: With the third coordinate in the place the code reads, the mass and momentum sources are the divergence of the flow flux, at every point and for every viscosity, whatever stands behind the array the source is called with. Missing: the energy equation, and the exact solution as it is called (see `C198_exact_reads_past_end_false`, `C198_energy_false`)."
  },
  {
   "property": "C199",
   "status": "partial",
   "theorems": [
    "Verif.Mms.C199_inviscid3_partial",
    "Verif.Mms.C199_inviscid3_false",
    "Verif.Mms.C199_inviscid2_false"
   ],
   "note": "The full statement does not hold of the code; its negation is proved: C199_inviscid3_false: The three-dimensional inviscid source is not the divergence of the Euler flux of the exact solution in the code, which has the square inside the sine. | C199_inviscid2_false: In two dimensions the inviscid source is zero and the exact solution is the vacuum: there is no manufactured solution. What is proved of it: C199_inviscid3_partial: At every point, the three-dimensional inviscid source is the divergence of the Euler flux of the solution with squared sines. Missing: it is not the divergence for the exact solution in the code (`C199_inviscid3_false`)."
  },
  {
   "property": "C200",
   "status": "proved",
   "theorems": [
    "Verif.Mms.C200_vector",
    "Verif.Mms.C200_quadrature",
    "Verif.Mms.C200_jacobian"
   ],
   "note": "The integrator adds the source at the nodes, times minus the quadrature weight, to the residual, whatever the state."
  },
  {
   "property": "C201",
   "status": "proved",
   "theorems": [
    "Verif.MultiState.C201_duplicates",
    "Verif.MultiState.C201_value",
    "Verif.MultiState.C201_no_states",
    "Verif.MultiState.C201_two_derivatives",
    "Verif.MultiState.C201_three_derivatives",
    "Verif.MultiState.C201_wrappers",
    "Verif.MultiState.C201_reverse",
    "Verif.MultiState.C201_demag"
   ],
   "note": "**C201** Registering succeeds exactly when no attribute is registered twice."
  },
  {
   "property": "C202",
   "status": "partial",
   "theorems": [
    "Verif.HeatSession.C202_value",
    "Verif.HeatSession.C202_value_override",
    "Verif.HeatSession.C202_mesh_partial",
    "Verif.HeatSession.C202_volume",
    "Verif.HeatSession.C202_stale_false",
    "Verif.HeatSession.C202_override_false",
    "Verif.HeatSession.C202_forward_false"
   ],
   "note": "The full statement does not hold of the code; its negation is proved: C202_stale_false: **C202 (false in general)** The reverse mesh derivative on a mesh given only to the derivative call is wrong: the heat source is evaluated on the mesh `1`, then its derivative is asked for on the mesh `2`, with the mesh among the inputs of the call. The answer is `-1`; the derivative of `1 / u` at `2` is `-1/4`. | C202_override_false: **C202 (false in general)** With the winding volume given by the user the output does not move with the mesh, but the reverse mesh derivative still contains the part through the volume. | C202_forward_false: **C202 (false in general)** The forward mesh derivative of the heat source adds nothing, on any mesh and in any direction, without an error, though the output moves: forward and reverse modes disagree. What is proved of it: C202_mesh_partial: **C202 (partial)** If the last `calcOutput` was made on the mesh `u` and no call since then has moved the mesh or set the winding volume, the reverse mesh derivative adds the gradient of the heat source to the vector, for every seed and in every direction, after any history. Missing: meshes on which the output has not been evaluated (`C202_stale_false`). The other theorems listed prove the rest of the statement."
  },
  {
   "property": "C203",
   "status": "partial",
   "theorems": [
    "Verif.EMOutputs.C203_names",
    "Verif.EMOutputs.C203_thermal_names",
    "Verif.EMOutputs.C203_refused",
    "Verif.EMOutputs.C203_fresh",
    "Verif.EMOutputs.C203_independent_partial",
    "Verif.EMOutputs.C203_session_partial",
    "Verif.EMOutputs.C203_second_torque_false",
    "Verif.EMOutputs.C203_suffix_false",
    "Verif.EMOutputs.C203_new_options_false",
    "Verif.EMOutputs.C203_new_options_partial",
    "Verif.EMOutputs.C203_thermal"
   ],
   "note": "The full statement does not hold of the code; its negation is proved: C203_second_torque_false: **C203, violation** A second torque output silently changes the value of the first: both read the one field that the construction of the second has projected anew. | C203_suffix_false: **C203, violation** A torque or force whose name has a suffix cannot be created before the one without: whatever its options, the call throws, no output results, and an unused field stays behind. | C203_new_options_false: **C203, violation** Setting new options on a force does not give the value of a force with those options: the integrator keeps the attributes of the construction. What is proved of it: C203_independent_partial: **C203, partial** Creating outputs and setting their options, successfully or not, does not change the value of an output of another name, unless both are forces or both are torques. | C203_session_partial: **C203, partial** Over a whole session: an output keeps the value its own options describe until its options are set anew, or another force (torque) is created or set. | C203_new_options_partial: **C203, partial** Setting new options with the attributes it was created with gives the value of an output with the new options. The other theorems listed prove the rest of the statement."
  },
  {
   "property": "C204",
   "status": "partial",
   "theorems": [
    "Verif.ThermalAssembly.C204_weak_form",
    "Verif.ThermalAssembly.C204_interfaces_partial",
    "Verif.ThermalAssembly.C204_balance",
    "Verif.ThermalAssembly.C204_continuous_contact_false",
    "Verif.ThermalAssembly.C204_refused",
    "Verif.ThermalAssembly.C204_penalty",
    "Verif.ThermalAssembly.C204_unknown_false",
    "Verif.ThermalAssembly.C204_overlap_false"
   ],
   "note": "The full statement does not hold of the code; its negation is proved: C204_continuous_contact_false: **C204 (false in general)** With a continuous basis a contact resistance has no effect: the options are accepted, and the residual is the same, for every temperature field, as without any contact resistances. | C204_unknown_false: **C204 (false in general)** Entries the constructor does not understand are dropped without an error: an interface of another kind, and a convection or outflux condition that is neither an array nor an object (such as `\"all\"`). | C204_overlap_false: **C204 (false in general)** If two interfaces name the same face, the perfect contact is subtracted twice: heat then flows from cold to hot. With two contact resistances too small to matter on the face between temperatures `1` and `0` the residual works with the wrong sign, where with one it has the right one. What is proved of it: C204_interfaces_partial: **C204 (partial)** Discontinuous basis, every face named by at most one interface: on a face named by none the elements are in perfect contact; on a face named by one, its law replaces the perfect contact. Missing: faces named twice (`C204_overlap_false`). The other theorems listed prove the rest of the statement."
  },
  {
   "property": "C205",
   "status": "partial",
   "theorems": [
    "Verif.ThermalAssembly.C205_inputs_are_options",
    "Verif.ThermalAssembly.C205_names",
    "Verif.ThermalAssembly.C205_shared_name_false",
    "Verif.ThermalAssembly.C205_monotone"
   ],
   "note": "The full statement does not hold of the code; its negation is proved: C205_shared_name_false: **C205 (false in general)** The names of the two kinds of interfaces are one name space: a value meant for the contact resistance `gap` also changes the fluid channel `gap`.  The other theorems listed prove the rest of the statement."
  },
  {
   "property": "C206",
   "status": "proved",
   "theorems": [
    "Verif.SbpColl.C206_constructible",
    "Verif.SbpColl.C206_single_valued",
    "Verif.SbpColl.C206_conforming",
    "Verif.SbpColl.C206_element",
    "Verif.SbpColl.C206_discontinuous",
    "Verif.SbpColl.C206_nodes",
    "Verif.SbpColl.C206_tet_owner",
    "Verif.SbpColl.C206_tet_single_valued",
    "Verif.SbpColl.C206_tet_sizes"
   ],
   "note": "An aborting constructor is exactly one with unsupported arguments."
  },
  {
   "property": "C207",
   "status": "partial",
   "theorems": [
    "Verif.SbpColl.C207_boundary_partial",
    "Verif.SbpColl.C207_boundary_false"
   ],
   "note": "The full statement does not hold of the code; its negation is proved: C207_boundary_false: C207 fails for degrees 3 and 4. Whatever the (increasing) Lobatto points are, there is a boundary segment of the reference triangle with a node whose degree of freedom sits somewhere else -- more than a tenth of the edge away -- in the triangle. What is proved of it: C207_boundary_partial: C207 (the documented claim, sbp_fe.cpp:340-341: the segment element has an \"ordering consistent with SBPTriangleElement's edges\"). For degrees 0, 1 and 2 the node of a boundary segment and the node of the adjacent triangle that are the same degree of freedom are at the same point: here the boundary segment runs along local edge `k` of triangle `e`, and the Lobatto points are those the tables were computed from (`pts 1` is `1/2` for `p = 1` and the printed inner node for `p = 2`)."
  },
  {
   "property": "C208",
   "status": "partial",
   "theorems": [
    "Verif.BSpline.C208_hiperco50_lognu",
    "Verif.BSpline.C208_lognu_continuous_false",
    "Verif.BSpline.C208_hiperco50_bh",
    "Verif.BSpline.C208_residual_monotone",
    "Verif.BSpline.C208_team13_false",
    "Verif.BSpline.C208_monotone_data",
    "Verif.BSpline.C208_end_points",
    "Verif.BSpline.C208_bh_user_partial"
   ],
   "note": "The full statement does not hold of the code; its negation is proved: C208_lognu_continuous_false: C208 (violation). The shipped `lognu` curve has a jump at its last knot: the fit ends strictly below the reluctivity of vacuum used beyond it (by less than 0.3 per cent). | C208_team13_false: C208 (violation). The library's `team13` curve cannot be used: its control points and knots are interchanged (12 numbers up to 2.22 T as control points, 8 field strengths, not even increasing, as knots), so that tinyspline rejects it. What is proved of it: C208_bh_user_partial: C208, user data for the `bh` model: non-decreasing control points on clamped knots with simple inner knots, starting at `B = 0`, give a field strength that does not decrease with the flux density above `1e-14`. The other theorems listed prove the rest of the statement."
  },
  {
   "property": "C209",
   "status": "partial",
   "theorems": [
    "Verif.AdJacobian.C209_volume",
    "Verif.AdJacobian.C209_stabilisation",
    "Verif.AdJacobian.C209_mass",
    "Verif.AdJacobian.C209_boundary",
    "Verif.AdJacobian.C209_interface",
    "Verif.AdJacobian.C209_pressure_force",
    "Verif.AdJacobian.C209_stagnation_false"
   ],
   "note": "The full statement does not hold of the code; its negation is proved: C209_stagnation_false: At a stagnation point the stabilisation's scaling kernel has no Jacobian at all, so no matrix, whatever Adept returns, is its Jacobian: the hypothesis `NotStagnant` of `C209_stabilisation` cannot be dropped.  The other theorems listed prove the rest of the statement."
  },
  {
   "property": "C210",
   "status": "proved",
   "theorems": [
    "Verif.AdViscous.C210_volume",
    "Verif.AdViscous.C210_boundary",
    "Verif.AdViscous.C210_surface_force",
    "Verif.AdViscous.C210_momentum_entry"
   ],
   "note": "C210, volume term. For every element, mapping, Reynolds and Prandtl number, with constant viscosity or Sutherland's law: at every field of physical states the element matrix assembled from the recorded Jacobians is the Jacobian of the viscous element residual."
  },
  {
   "property": "C211",
   "status": "partial",
   "theorems": [
    "Verif.TextLogs.C211_entropy_log_run",
    "Verif.TextLogs.C211_entropy_log_history",
    "Verif.TextLogs.C211_entropy_log_after_abort_false",
    "Verif.TextLogs.C211_control_first_partial",
    "Verif.TextLogs.C211_control_later_false",
    "Verif.TextLogs.C211_control_steady",
    "Verif.TextLogs.C211_rows",
    "Verif.TextLogs.C211_times",
    "Verif.TextLogs.C211_crash",
    "Verif.TextLogs.C211_control_value",
    "Verif.TextLogs.C211_control_files"
   ],
   "note": "The full statement does not hold of the code; its negation is proved: C211_entropy_log_after_abort_false: FALSE without \"completed\": after an aborted solve, the next one removes the file and cannot reopen the stream, so there is no log at all; the one after works again. | C211_control_later_false: FALSE for every later solve: it wipes the log of the earlier one and leaves an empty file. What is proved of it: C211_control_first_partial: The first solve of a flow-control solver logs correctly, also when it is cut short. The other theorems listed prove the rest of the statement."
  },
  {
   "property": "C212",
   "status": "partial",
   "theorems": [
    "Verif.FluxNorm.C212_flux_is_curl",
    "Verif.FluxNorm.C212_norm_value",
    "Verif.FluxNorm.C212_square_value",
    "Verif.FluxNorm.C212_nu_norm_value",
    "Verif.FluxNorm.C212_nu_norm_value_partial",
    "Verif.FluxNorm.C212_nu_value_partial",
    "Verif.FluxNorm.C212_nu_values_false",
    "Verif.FluxNorm.C212_norm_nonneg",
    "Verif.FluxNorm.C212_norm_le",
    "Verif.FluxNorm.C212_norm_state_partial",
    "Verif.FluxNorm.C212_nu_norm_state_partial",
    "Verif.FluxNorm.C212_state_false",
    "Verif.FluxNorm.C212_norm_mesh_partial",
    "Verif.FluxNorm.C212_nu_norm_mesh_partial",
    "Verif.FluxNorm.C212_nu_mesh_partial",
    "Verif.FluxNorm.C212_thermal_sens"
   ],
   "note": "The full statement does not hold of the code; its negation is proved: C212_nu_values_false: FALSE in general for both: already for constant reluctivity on an element of determinant two. | C212_state_false: FALSE at a point of zero flux: neither gradient is finite there, for instance at the zero initial state. What is proved of it: C212_nu_norm_value_partial: On an element of unit Jacobian it is the integral of `ν(|B|) |B|`. | C212_nu_value_partial: What `nuFuncIntegrator` computes: the point weights are divided by the Jacobian determinant. | C212_norm_state_partial: State gradient of `∫|B|`: exact in every direction as soon as no quadrature point has zero flux. | C212_nu_norm_state_partial: State gradient of `nuBNormIntegrator`: exact for what that integrator computes. | C212_norm_mesh_partial: Mesh sensitivity of `∫|B|`. | C212_nu_norm_mesh_partial: Mesh sensitivity of `nuBNormIntegrator`, for what that integrator computes. | C212_nu_mesh_partial: Mesh sensitivity of `nuFuncIntegrator`, for what that integrator computes. The other theorems listed prove the rest of the statement."
  },
  {
   "property": "C213",
   "status": "proved",
   "theorems": [
    "Verif.Steinmetz.C213_value",
    "Verif.Steinmetz.C213_nonneg",
    "Verif.Steinmetz.C213_monotone",
    "Verif.Steinmetz.C213_frequency",
    "Verif.Steinmetz.C213_flux",
    "Verif.Steinmetz.C213_mesh",
    "Verif.Steinmetz.C213_distribution",
    "Verif.Steinmetz.C213_total",
    "Verif.Steinmetz.C213_rules",
    "Verif.Steinmetz.C213_stack_length",
    "Verif.Steinmetz.C213_power_law",
    "Verif.Steinmetz.C213_inputs",
    "Verif.Steinmetz.C213_inputs_agree",
    "Verif.Steinmetz.C213_stack_length_input",
    "Verif.Steinmetz.C213_keys"
   ],
   "note": "The loss is the quadrature of Steinmetz's formula at the current frequency and peak flux."
  },
  {
   "property": "C214",
   "status": "partial",
   "theorems": [
    "Verif.FlowControl.C214_evaluate",
    "Verif.FlowControl.C214_evaluate_control",
    "Verif.FlowControl.C214_entropy",
    "Verif.FlowControl.C214_entropy_change",
    "Verif.FlowControl.C214_change_matches_evaluate",
    "Verif.FlowControl.C214_false_change_ignores_parameters",
    "Verif.FlowControl.C214_supply_rate",
    "Verif.FlowControl.C214_jacobian_block",
    "Verif.FlowControl.C214_initial_jacobian",
    "Verif.FlowControl.C214_false_default_actuator",
    "Verif.FlowControl.C214_actuator_kept_partial"
   ],
   "note": "The full statement does not hold of the code; its negation is proved: C214_false_change_ignores_parameters: **C214** Gains, boundary entropy, actuator position and control value handed to the entropy change are ignored: only the state, its rate, time and `dt` count. (Documented: \"the variables needed to evaluate the entropy\".) | C214_false_default_actuator: **C214** If the caller never supplies an actuator position, every evaluation and entropy change of a newly built coupled residual reads past the end of an empty vector: the default position `(0.5, 0)` of its integrators is overwritten by the residual's own empty one. What is proved of it: C214_actuator_kept_partial: **C214** Once supplied, an actuator position stays in force for all later evaluations that do not supply another. The other theorems listed prove the rest of the statement."
  },
  {
   "property": "C215",
   "status": "partial",
   "theorems": [
    "Verif.FlowControl.C215_construct_iff",
    "Verif.FlowControl.C215_false_entropy_variables",
    "Verif.FlowControl.C215_conservative_start_partial",
    "Verif.FlowControl.C215_mesh",
    "Verif.FlowControl.C215_outputs",
    "Verif.FlowControl.C215_set_state"
   ],
   "note": "The full statement does not hold of the code; its negation is proved: C215_false_entropy_variables: **C215** A flow-control solver in entropy variables can be constructed but never run: the constructor requires a steady problem, the start of every solve refuses steady problems. What is proved of it: C215_conservative_start_partial: **C215** In conservative variables every unsteady configuration that can be constructed can be started, and only those. The other theorems listed prove the rest of the statement."
  },
  {
   "property": "C216",
   "status": "proved",
   "theorems": [
    "Verif.MeshSens.C216_volume_any_flux",
    "Verif.MeshSens.C216_volume",
    "Verif.MeshSens.C216_slip_wall_flux_bar",
    "Verif.MeshSens.C216_slip_wall"
   ],
   "note": "The mesh sensitivity of the two-point volume term, for every flux, operator, state and motion."
  },
  {
   "property": "C217",
   "status": "proved",
   "theorems": [
    "Verif.QuarterAnnulus.C217_domain",
    "Verif.QuarterAnnulus.C217_boundary_vertices",
    "Verif.QuarterAnnulus.C217_boundary_nodes",
    "Verif.QuarterAnnulus.C217_orientation",
    "Verif.QuarterAnnulus.C217_orientation_sharp",
    "Verif.QuarterAnnulus.C217_elements_positive",
    "Verif.QuarterAnnulus.C217_area"
   ],
   "note": "Every node of the mesh, of any degree, lies in the closed quarter annulus with radii 1 and 3: the documented domain."
  },
  {
   "property": "C218",
   "status": "proved",
   "theorems": [
    "Verif.Reconstruct.C218_rows",
    "Verif.Reconstruct.C218_minimum_norm",
    "Verif.Reconstruct.C218_dimensions",
    "Verif.Reconstruct.C218_least_squares",
    "Verif.Reconstruct.C218_least_squares_exact",
    "Verif.Reconstruct.C218_partition_of_unity",
    "Verif.Reconstruct.C218_enough_centres",
    "Verif.Reconstruct.C218_unisolvent_enough"
   ],
   "note": "The running index of the code visits exactly the rows it allocated: no entry of the work matrices is written out of range and none is left zero."
  },
  {
   "property": "C219",
   "status": "partial",
   "theorems": [
    "Verif.LibData.C219_hysteresis",
    "Verif.LibData.C219_eddy_partial",
    "Verif.LibData.C219_eddy_false",
    "Verif.LibData.C219_loss_partial",
    "Verif.LibData.C219_loss_false",
    "Verif.LibData.C219_name_only",
    "Verif.LibData.C219_magnet_partial",
    "Verif.LibData.C219_magnet_false",
    "Verif.LibData.C219_magnet_singular",
    "Verif.LibData.C219_wires",
    "Verif.LibData.C219_constant_model"
   ],
   "note": "The full statement does not hold of the code; its negation is proved: C219_eddy_false: **C219** Below that the property fails: at 20 °C the coefficient is negative for all flux densities up to 0.05 T (a negative loss), and between 0.05 T and 0.054 T there is a flux density at which, at every temperature, it is not a number. | C219_loss_false: **C219** Beyond, it is not: at 20 kHz, 20 °C and 1 mT the density is negative. | C219_magnet_false: **C219** From -11 °C to 51 °C it has the opposite sign: negative above the knee, where the magnet is safe, and positive below it. What is proved of it: C219_eddy_partial: **C219** Its eddy-current coefficient is finite and positive only from 0.054 T on. | C219_loss_partial: **C219** The loss density of Hiperco 50 is positive wherever it is a number, for flux densities up to 2.5 T, temperatures between the references and frequencies up to 16 kHz. | C219_magnet_partial: **C219** From 53 °C to 188 °C the shipped magnet's constraint has its documented sign: positive exactly above the knee, negative exactly below. The other theorems listed prove the rest of the statement."
  },
  {
   "property": "C220",
   "status": "partial",
   "theorems": [
    "Verif.OutputCaps.C220_well_formed",
    "Verif.OutputCaps.C220_resolution",
    "Verif.OutputCaps.C220_value",
    "Verif.OutputCaps.C220_false_field_of_one",
    "Verif.OutputCaps.C220_scalar_refuses_vectors",
    "Verif.OutputCaps.C220_size",
    "Verif.OutputCaps.C220_false_entropy_size",
    "Verif.OutputCaps.C220_entropy_number",
    "Verif.OutputCaps.C220_false_entropy_partials",
    "Verif.OutputCaps.C220_forward",
    "Verif.OutputCaps.C220_reverse",
    "Verif.OutputCaps.C220_partials",
    "Verif.OutputCaps.C220_options",
    "Verif.OutputCaps.C220_names",
    "Verif.OutputCaps.C220_classes",
    "Verif.OutputCaps.C220_solver_products",
    "Verif.OutputCaps.C220_python_errors"
   ],
   "note": "The full statement does not hold of the code; its negation is proved: C220_false_field_of_one: **C220 is false for fields with one entry on this process** (one element of degree zero, or a small partition): the value written is NaN and no exception is thrown, whatever the field. | C220_false_entropy_size: **C220 is false for the flow entropy**: a caller who asks for its size and evaluates into a vector of that size — as the Python layer does — gets an exception for every state of more than one unknown. | C220_false_entropy_partials: **C220 is false for the partials of the flow entropy**: they are reported as zero, silently, although the entropy depends on the state; its products throw. What is proved of it: C220_false_entropy_partials: **C220 is false for the partials of the flow entropy**: they are reported as zero, silently, although the entropy depends on the state; its products throw. | C220_partials: **C220, partials.** The explicit partials exist for the functional, force and torque outputs; all others but the entropy refuse and leave the caller's number or vector as it was. The other theorems listed prove the rest of the statement."
  },
  {
   "property": "C221",
   "status": "partial",
   "theorems": [
    "Verif.CurrentField.C221_accept",
    "Verif.CurrentField.C221_plane",
    "Verif.CurrentField.C221_space",
    "Verif.CurrentField.C221_consistent",
    "Verif.CurrentField.C221_mesh_derivative",
    "Verif.CurrentField.C221_stator_parameters",
    "Verif.CurrentField.C221_ignored_false"
   ],
   "note": "The full statement does not hold of the code; its negation is proved: C221_ignored_false: **C221, violation** A source that exists in three dimensions only (or a misspelt one) is not reported by the two-dimensional coefficient: the elements, among those the load is integrated over, carry no current, whatever density is set.  The other theorems listed prove the rest of the statement."
  },
  {
   "property": "C222",
   "status": "partial",
   "theorems": [
    "Verif.Opt.C222_accumulates",
    "Verif.Opt.C222_error_partial",
    "Verif.Opt.C222_gradient_partial",
    "Verif.Opt.C222_stale_false",
    "Verif.Opt.C222_stale_witness_false",
    "Verif.Opt.C222_one_dof_field_false"
   ],
   "note": "The full statement does not hold of the code; its negation is proved: C222_stale_false: **C222 is false if the guess already solves the next design**: no Newton step is taken, `linearize` keeps the Jacobian of the previous design, and the gradient is the one with that adjoint: for every problem, every component that holds a Jacobian `A`, and every design `q` whose guess meets the tolerance. | C222_stale_witness_false: **C222, violation, concretely**: two designs of a loop that starts with a fresh component and uses the last state as guess, exact Newton steps and tolerances zero. At `(1, 0)` everything is right. At `(2, 0)` the old state is the solution; the derivative of the first state with respect to the second parameter is `1/2`, and the gradient says `1`. | C222_one_dof_field_false: **C222 is false for a field with one dof**: it arrives at the overload for numbers, where its name is not known, and its part of the gradient is missing. What is proved of it: C222_error_partial: **C222, exact error** After any history, a solve at a new design that takes at least one Newton step, `linearize`, and any number of further calls at that design: the gradient OpenMDAO assembles for an output differs from its derivative along the solutions by exactly `ψ · (J(p, v) - J(p, u)) U'`, where `v` is the iterate before the last step, `u` the state, `U'` the derivative of the state and `ψ` the adjoint of the problem linearised at `v`. | C222_gradient_partial: **C222** If the Jacobian does not depend on the state (linear problems, for every value of the parameters), the gradient is the exact total derivative of the output with respect to all inputs, numbers and fields, at every design of the loop that takes a Newton step, whatever happened before and however many outputs were differentiated before at this design. The other theorems listed prove the rest of the statement."
  },
  {
   "property": "C223",
   "status": "partial",
   "theorems": [
    "Verif.PyJson.C223_arrives",
    "Verif.PyJson.C223_rejected",
    "Verif.PyJson.C223_integers",
    "Verif.PyJson.C223_round_trip_partial",
    "Verif.PyJson.C223_types_false",
    "Verif.PyJson.C223_large_false",
    "Verif.PyJson.C223_same_text_false"
   ],
   "note": "The full statement does not hold of the code; its negation is proved: C223_types_false: **C223** fails for the type of a number and of a tuple: every whole float that fits comes back as an integer, every tuple as a list. | C223_large_false: **C223** fails for large numbers: an infinite float, or a whole one from `2^63` on, is accepted and stored, and reading the options back is then undefined. | C223_same_text_false: **C223** fails if two keys have the same text, as `1` and `\"1\"` have: only the later value arrives. What is proved of it: C223_round_trip_partial: **C223** Reading the options back gives the same value at every path, provided no dictionary has two keys of the same text and every float inside is finite or NaN and, if whole, fits a `long`. (`SameValue`: a whole float comes back as an integer; a tuple comes back as a list.) The other theorems listed prove the rest of the statement."
  },
  {
   "property": "C224",
   "status": "partial",
   "theorems": [
    "Verif.PyJson.C224_by_name",
    "Verif.PyJson.C224_name_or_dict",
    "Verif.PyJson.C224_by_dict",
    "Verif.PyJson.C224_options",
    "Verif.PyJson.C224_replaced_false"
   ],
   "note": "The full statement does not hold of the code; its negation is proved: C224_replaced_false: **C224** fails for a `\"solver-type\"` the user already put among the options: it is replaced without a word.  The other theorems listed prove the rest of the statement."
  },
  {
   "property": "C225",
   "status": "partial",
   "theorems": [
    "Verif.PyFunctions.C225_scalar",
    "Verif.PyFunctions.C225_fails",
    "Verif.PyFunctions.C225_vector_false",
    "Verif.PyFunctions.C225_error_false",
    "Verif.PyFunctions.C225_not_callable"
   ],
   "note": "The full statement does not hold of the code; its negation is proved: C225_vector_false: **C225** fails for vector-valued states: a Python function of a point and a vector to fill, which cannot be called with one argument, is not used as one; the call raises. | C225_error_false: **C225** fails for `calcStateError`: whatever Python object is given as the exact solution, no error is returned.  The other theorems listed prove the rest of the statement."
  },
  {
   "property": "C226",
   "status": "proved",
   "theorems": [
    "Verif.ProjectionInteg.C226_weak_form",
    "Verif.ProjectionInteg.C226_gradient",
    "Verif.ProjectionInteg.C226_best",
    "Verif.ProjectionInteg.C226_jacobian",
    "Verif.ProjectionInteg.C226_mesh"
   ],
   "note": "**C226** Tested with `ψ` the residual is `α ∫ (u - g) ψ`; the boundary term is `∫ u ψ`."
  },
  {
   "property": "C227",
   "status": "partial",
   "theorems": [
    "Verif.DemagAgg.C227_mean",
    "Verif.DemagAgg.C227_between",
    "Verif.DemagAgg.C227_constraint",
    "Verif.DemagAgg.C227_direction",
    "Verif.DemagAgg.C227_fields",
    "Verif.DemagAgg.C227_unmagnetised_false"
   ],
   "note": "The full statement does not hold of the code; its negation is proved: C227_unmagnetised_false: **C227** (negation) One point without magnetisation (a temperature at which the magnet has lost it, or an element that is no magnet) makes the aggregate not a number, whatever the rest of the mesh is.  The other theorems listed prove the rest of the statement."
  },
  {
   "property": "C228",
   "status": "partial",
   "theorems": [
    "Verif.MatCoeffs.C228_degree",
    "Verif.MatCoeffs.C228_laws",
    "Verif.MatCoeffs.C228_linear",
    "Verif.MatCoeffs.C228_refused",
    "Verif.MatCoeffs.C228_team13_false",
    "Verif.MatCoeffs.C228_own_spline_false"
   ],
   "note": "The full statement does not hold of the code; its negation is proved: C228_team13_false: **C228** (negation) The law for the TEAM 13 steel is in the code, but cannot be asked for: its options are always refused. | C228_own_spline_false: **C228** (negation) A component that brings its own control points and knots for a material without such a block in the library is not given the default degree 3: reading the default fails.  The other theorems listed prove the rest of the statement."
  },
  {
   "property": "C229",
   "status": "partial",
   "theorems": [
    "Verif.FuncComp.C229_memoryless",
    "Verif.FuncComp.C229_history",
    "Verif.FuncComp.C229_own_name_false"
   ],
   "note": "The full statement does not hold of the code; its negation is proved: C229_own_name_false: **C229** (negation) Without the assumption that the solver ignores an entry named like the output, it fails: the buffer of the output is handed over as an input of that name. Here the solver adds 1 to the entry \"f\": the first result is made of uninitialised memory, and the same inputs give another result the second time.  The other theorems listed prove the rest of the statement."
  },
  {
   "property": "C230",
   "status": "partial",
   "theorems": [
    "Verif.FlowMass.C230_assembled",
    "Verif.FlowMass.C230_positive_and_volume",
    "Verif.FlowMass.C230_construct",
    "Verif.FlowMass.C230_cached",
    "Verif.FlowMass.C230_unmoved_partial",
    "Verif.FlowMass.C230_stale_factor",
    "Verif.FlowMass.C230_steady_unaffected",
    "Verif.FlowMass.C230_follows_mesh_false"
   ],
   "note": "The full statement does not hold of the code; its negation is proved: C230_follows_mesh_false: **C230** The full claim is false: \"after new mesh coordinates are passed in, an explicit stage gives the slope of the semi-discrete equations on the mesh in use\" fails — a one-element mesh whose volume is doubled, residual 1. What is proved of it: C230_unmoved_partial: **C230** (partial: the claim that the mass matrix is that of the current mesh fails once the mesh moves, see `C230_follows_mesh_false`.) If the last mesh passed in is the one the solver was built on, an explicit stage of an unsteady problem gives the slope of the semi-discrete equations on that mesh: every dof's lumped mass times its slope is minus its residual. The other theorems listed prove the rest of the statement."
  },
  {
   "property": "C231",
   "status": "partial",
   "theorems": [
    "Verif.Mphys.C231_setup",
    "Verif.Mphys.C231_mesh",
    "Verif.Mphys.C231_state",
    "Verif.Mphys.C231_other",
    "Verif.Mphys.C231_unwarped",
    "Verif.Mphys.C231_mesh_group",
    "Verif.Mphys.C231_own_mesh_false"
   ],
   "note": "The full statement does not hold of the code; its negation is proved: C231_own_mesh_false: **C231** The claim \"without a warper the solver computes on its own mesh\" is false.  The other theorems listed prove the rest of the statement."
  },
  {
   "property": "C232",
   "status": "partial",
   "theorems": [
    "Verif.Force.C232_same_in_3d",
    "Verif.Force.C232_virtual_work_3d_partial",
    "Verif.Force.C232_two_dimensions",
    "Verif.Force.C232_two_dimensions_false",
    "Verif.Force.C232_magnetisation_value",
    "Verif.Force.C232_magnetisation_gradient_partial",
    "Verif.Force.C232_magnetisation_gradient_false"
   ],
   "note": "The full statement does not hold of the code; its negation is proved: C232_two_dimensions_false: **C232** The claim that the older integrator gives the virtual work is false in two dimensions (an element with Jacobian `2 I` stretched in the direction of the field's gradient, linear material). | C232_magnetisation_gradient_false: **C232** For a reluctivity that varies with the field the assembled gradient is wrong: it is zero although the residual changes. What is proved of it: C232_virtual_work_3d_partial: **C232** Hence in three dimensions its value is minus the derivative of the element's magnetic energy along the virtual displacement, and its gradient is exact. (Partial: non-zero flux density, displacements above the cut-off, as for C132; and three dimensions only, see `C232_two_dimensions_false`.) | C232_magnetisation_gradient_partial: **C232** (partial: constant reluctivity only, see `C232_magnetisation_gradient_false`.) With a reluctivity that does not depend on the field the residual does not depend on the state and the zero matrix is its Jacobian. The other theorems listed prove the rest of the statement."
  },
  {
   "property": "C233",
   "status": "partial",
   "theorems": [
    "Verif.LegacyMesh.C233_load",
    "Verif.LegacyMesh.C233_mass_partial",
    "Verif.LegacyMesh.C233_diffusion_partial",
    "Verif.LegacyMesh.C233_boundary_normal_partial",
    "Verif.LegacyMesh.C233_test_load",
    "Verif.LegacyMesh.C233_test_rules",
    "Verif.LegacyMesh.C233_coefficient_false",
    "Verif.LegacyMesh.C233_rule_partial",
    "Verif.LegacyMesh.C233_rule_false"
   ],
   "note": "The full statement does not hold of the code; its negation is proved: C233_coefficient_false: **C233** For a coefficient that depends on the position the mass sensitivity is wrong (`Q = x` on a triangle shifted along `x`; the comment in the code says it must be tailored to the coefficient). | C233_rule_false: **C233 is false for objects made with an integration rule**: for elements of every order there is a rule that, given to the constructor, is not the one used. What is proved of it: C233_mass_partial: **C233** (partial: coefficients that do not change along the motion; see `C233_coefficient_false`.) Mass. | C233_diffusion_partial: **C233** (partial: coefficients that do not change along the motion; elements of full dimension.) Diffusion. | C233_boundary_normal_partial: **C233** (partial: vector coefficients that do not change along the motion.) The boundary integrator: derivative of `∫ ψ Q·n dΓ` over the faces of an element, in two and three dimensions. | C233_rule_partial: **C233** (partial: objects made with the two numbers; see `C233_rule_false`.) The load sensitivity is integrated with a rule of order `a · order + b` for the `a` and `b` the caller gave, for elements of every order. The other theorems listed prove the rest of the statement."
  },
  {
   "property": "C234",
   "status": "partial",
   "theorems": [
    "Verif.Operators.C234_file",
    "Verif.Operators.C234_affine",
    "Verif.Operators.C234_lines_are_products",
    "Verif.Operators.C234_forward_difference",
    "Verif.Operators.C234_layout_false",
    "Verif.Operators.C234_sum_sizes",
    "Verif.Operators.C234_retarget_false",
    "Verif.Operators.C234_retarget_work_false"
   ],
   "note": "The full statement does not hold of the code; its negation is proved: C234_layout_false: **C234** The claim that line `i`, entry `j` is the operator's entry `(i, j)` is false: lines and columns are swapped. | C234_retarget_false: **C234** … but re-targeting an existing sum accepts anything: operators of different sizes, and a work vector of the wrong size. | C234_retarget_work_false: **C234** … for every sum and every new pair of operators: the sizes are taken over unchecked and the work vector keeps the size of the operators the sum was made from.  The other theorems listed prove the rest of the statement."
  },
  {
   "property": "C235",
   "status": "partial",
   "theorems": [
    "Verif.Force.C235_mesh_sensitivity_partial",
    "Verif.Force.C235_same_as_current"
   ],
   "note": "What is proved of it: C235_mesh_sensitivity_partial: **C235** In three dimensions the mesh sensitivity of the older force integrator, multiplied with any motion of the mesh nodes, is the derivative of the element's force contribution under that motion (virtual displacement and state held fixed). (Missing: points of zero flux density, where the code divides by zero; and two dimensions.) The other theorems listed prove the rest of the statement."
  },
  {
   "property": "C236",
   "status": "partial",
   "theorems": [
    "Verif.DGDiffusion.C236_boundary_form",
    "Verif.DGDiffusion.C236_boundary_symmetric",
    "Verif.DGDiffusion.C236_interior_form",
    "Verif.DGDiffusion.C236_boundary_sensitivity",
    "Verif.DGDiffusion.C236_rule_partial",
    "Verif.DGDiffusion.C236_rule_false",
    "Verif.DGDiffusion.C236_interior_sensitivity"
   ],
   "note": "The full statement does not hold of the code; its negation is proved: C236_rule_false: **C236, violation** On tensor-product elements they do not, in any positive dimension: the sensitivity is that of another sum. What is proved of it: C236_rule_partial: **C236** Residual and sensitivity of the boundary term use the same rule on simplices. The other theorems listed prove the rest of the statement."
  },
  {
   "property": "C237",
   "status": "partial",
   "theorems": [
    "Verif.TransferMap.C237_displacements_partial",
    "Verif.TransferMap.C237_sizes",
    "Verif.TransferMap.C237_errors",
    "Verif.TransferMap.C237_other_types",
    "Verif.TransferMap.C237_types_false",
    "Verif.TransferMap.C237_slices_false"
   ],
   "note": "The full statement does not hold of the code; its negation is proved: C237_types_false: **C237** So the displacements do not always arrive: not in an array of integers or single-precision numbers, … | C237_slices_false: **C237** … and not in a slice of an array: the entries of every second position of an array of six, for one node. What is proved of it: C237_displacements_partial: **C237** Given a contiguous array of doubles with two or three entries per node, and no failure of EGADS, every entry becomes the displacement of its node. The other theorems listed prove the rest of the statement."
  },
  {
   "property": "C238",
   "status": "partial",
   "theorems": [
    "Verif.TransferMap.C238_nodes_partial",
    "Verif.TransferMap.C238_one_dimension",
    "Verif.TransferMap.C238_errors",
    "Verif.TransferMap.C238_layout_false"
   ],
   "note": "The full statement does not hold of the code; its negation is proved: C238_layout_false: **C238** Where the nodes are stored `byVDIM`, the layout MFEM itself gives a mesh, the values are those of other points: on two nodes (0,0) and (1,2) in the plane, the field `x` comes out as (0, 0), not as (0, 1). What is proved of it: C238_nodes_partial: **C238** With GSLIB, and an output with room for the nodes of the new mesh, the output holds the field's value at every node and is otherwise as before, if the nodes are stored `byNODES`. The other theorems listed prove the rest of the statement."
  },
  {
   "property": "C239",
   "status": "partial",
   "theorems": [
    "Verif.Advection.C239_weak_form",
    "Verif.Advection.C239_conserves",
    "Verif.Advection.C239_energy",
    "Verif.Advection.C239_lps",
    "Verif.Advection.C239_lps_dissipates",
    "Verif.Advection.C239_stiffness",
    "Verif.Advection.C239_constant_false"
   ],
   "note": "The full statement does not hold of the code; its negation is proved: C239_constant_false: **C239** The matrix is the volume term only: a constant field in a constant velocity has no rate of change, but the two nodes of an element on the segment get `-1` and `1`. `AdvectionSolver` adds no flux over the boundary of the domain.  The other theorems listed prove the rest of the statement."
  },
  {
   "property": "C240",
   "status": "partial",
   "theorems": [
    "Verif.PdeSetup.C240_magnetostatic_fields",
    "Verif.PdeSetup.C240_values",
    "Verif.PdeSetup.C240_thermal_fields_partial",
    "Verif.PdeSetup.C240_load_space_false"
   ],
   "note": "The full statement does not hold of the code; its negation is proved: C240_load_space_false: **C240** A declared \"thermal_load\" keeps its own space, which need not be the state's: the load of a solver with linear states can have three components. What is proved of it: C240_thermal_fields_partial: **C240** A thermal solver has all the fields its options ask for and a load on the state's own space. The other theorems listed prove the rest of the statement."
  },
  {
   "property": "C241",
   "status": "partial",
   "theorems": [
    "Verif.AdJacobian.C241_euler",
    "Verif.AdJacobian.C241_boundary_state",
    "Verif.AdJacobian.C241_slip_wall",
    "Verif.AdJacobian.C241_control",
    "Verif.AdJacobian.C241_boundary_partial",
    "Verif.AdJacobian.C241_interface_partial",
    "Verif.AdJacobian.C241_stagnant_false"
   ],
   "note": "The full statement does not hold of the code; its negation is proved: C241_stagnant_false: **C241 is false at normals perpendicular to the prescribed stream**: the far-field flux, as a function of the normal, has no Jacobian there, so none of the matrices Adept may return is one. What is proved of it: C241_boundary_partial: **C241** (partial: normals in which no wave speed of the prescribed state vanishes; see `C241_stagnant_false`.) The far field's, the entropy-conservative condition's and the vortex's Jacobians with respect to the normal are exact. | C241_interface_partial: **C241** (partial: normals not perpendicular to the mean momentum.) The interface flux's Jacobian with respect to the normal, in either set of variables, with any dissipation coefficient. The other theorems listed prove the rest of the statement."
  }
 ]
}