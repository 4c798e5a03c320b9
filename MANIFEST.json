{
 "claims": [
  {
   "property": "C01",
   "status": "proved",
   "theorems": [
    "VGPA.C01_moments",
    "VGPA.C01_bad_order",
    "VGPA.C01_entry"
   ],
   "note": "C01: for arrays of equal length, `GaussianMoments(m, v)(order)` is the list of true moments `E[x^order]`, for every order from 0 to 8. C01: every other integer order raises `ValueError`."
  },
  {
   "property": "C02",
   "status": "proved",
   "theorems": [
    "VGPA.C02_dm",
    "VGPA.C02_ds",
    "VGPA.C02_bad_order"
   ],
   "note": "C02: `dm(order)` is, entry by entry, the derivative of `E[x^order]` with respect to the mean. C02: `ds(order)` is, entry by entry, the derivative of `E[x^order]` with respect to the variance (one-sided at variance zero)."
  },
  {
   "property": "C03",
   "status": "partial",
   "theorems": [
    "VGPA.C03_runtimeError_violated",
    "VGPA.C03_mismatch_partial"
   ],
   "note": "C03 as expected is false: mismatched lengths do not raise `RuntimeError`. C03, what holds: mismatched lengths always raise (a `ValueError`), equal lengths are always accepted and the object keeps both arrays."
  },
  {
   "property": "C04",
   "status": "proved",
   "theorems": [
    "VGPA.C04_split_invariance",
    "VGPA.C04_sorted_needed"
   ],
   "note": "C04. For every non-decreasing list of observation indices (empty, with repeats, with the first or last index, or running past the end), integrating piecewise equals the textbook trapezoidal rule over the whole series, and equals the call without observation indices. Entries may be scalars, vectors, matrices. Sortedness is needed: for a decreasing index list a cell is counted twice."
  },
  {
   "property": "C05",
   "status": "proved",
   "theorems": [
    "VGPA.C05_linear",
    "VGPA.C05_affine_exact",
    "VGPA.C05_nonneg",
    "VGPA.C05_monotone"
   ],
   "note": "C05 (linear). For integrands of equal length, any step and any non-decreasing index list. C05 (exact on affine data). Integrating `n + 1 ≥ 1` samples `c, c + e, ..., c + n e` of an affine function gives exactly `dx * n * (first + last) / 2`."
  },
  {
   "property": "C06",
   "status": "proved",
   "theorems": [
    "VGPA.C06_evaluation_points",
    "VGPA.C06_exact_on_quadratics"
   ],
   "note": "C06 (evaluation points). For a callable that returns `f` and updates some state at each call, `finite_diff(fun, x)` performs exactly the calls `x + h e_i`, `x - h e_i` for `i = 0, ..., n-1` in this order (so no perturbation is left over in the next one), and entry `i` of the result is the central difference `(f(x + h e_i) - f(x - h e_i)) / (2 h)`, with `h = 10^-6`. C06 (exact on quadratics). If the restriction of `f` to the coordinate line through `x` in direction `i` is a polynomial of degree at most two, entry `i` of `finite_diff(f, x)` is the exact partial derivative."
  },
  {
   "property": "C07",
   "status": "proved",
   "theorems": [
    "VGPA.C07_error_bound"
   ],
   "note": "C07. If the restriction of `f` to the coordinate line through `x` in direction `i` is three times continuously differentiable and its third derivative is bounded by `M` on `[x_i - h, x_i + h]`, `h = 10^-6`, then entry `i` of `finite_diff(f, x)` differs from the partial derivative by at most `M h^2 / 6`."
  },
  {
   "property": "C08",
   "status": "proved",
   "theorems": [
    "VGPA.C08_safe_log",
    "VGPA.C08_clips"
   ],
   "note": "C08. `safe_log` is the logarithm on `[10^-300, 10^300]`, stays within the two bounds everywhere, and is non-decreasing. The clipping is real: below the lower bound `safe_log` is constant."
  },
  {
   "property": "C09",
   "status": "proved",
   "theorems": [
    "VGPA.C09_matrix",
    "VGPA.C09_scalar",
    "VGPA.C09_vector",
    "VGPA.C09_vector_error",
    "VGPA.C09_not_square",
    "VGPA.C09_not_posDef"
   ],
   "note": "C09: `log_det` of a positive definite matrix is the logarithm of its determinant. C09: `log_det` of a positive number is its logarithm."
  },
  {
   "property": "C10",
   "status": "proved",
   "theorems": [
    "VGPA.C10_inverse",
    "VGPA.C10_error",
    "VGPA.C10_scalar"
   ],
   "note": "C10: for every positive definite `x`, `chol_inv(x)` returns `(y, c)` with `y` the two-sided inverse of `x`, `y = cᵀ c` (hence symmetric), and `c` lower triangular with positive diagonal, whitening `x`. C10: for every symmetric matrix that is not positive definite, `chol_inv` raises `LinAlgError`."
  },
  {
   "property": "C11",
   "status": "proved",
   "theorems": [
    "VGPA.C11_lower_triangle_only",
    "VGPA.C11_result_of_symmetrised",
    "VGPA.C11_not_the_inverse"
   ],
   "note": "C11: two matrices that agree on and below the diagonal give the same `chol_inv` and the same `log_det`. C11: for any square matrix, the results are those of the symmetric matrix built from its lower triangle."
  },
  {
   "property": "C12",
   "status": "proved",
   "theorems": [
    "VGPA.C12_sigma_points",
    "VGPA.C12_calls_once",
    "VGPA.C12_affine_exact",
    "VGPA.C12_quadratic_exact"
   ],
   "note": "C12: for every positive definite covariance there are `2 d + 1` weighted points, independent of the function, with positive weights of sum one whose weighted mean and covariance are the given ones, such that the transformation of any pointwise function succeeds and returns the weighted mean of its values. C12: the function is called exactly once, on the list of those points: an error it raises is the result, and a result with a wrong number of rows is a `ValueError`."
  },
  {
   "property": "C13",
   "status": "partial",
   "theorems": [
    "VGPA.C13_fallback_partial",
    "VGPA.C13_fallback_error_partial",
    "VGPA.C13_variances_violated"
   ],
   "note": "C13 is false of the code: for the (positive semidefinite) covariance with all entries one and mean zero, the transformation of `z ↦ z₀²` is `1 / 4.1`, not the variance `1`. C13, what holds in the fallback branch: the transformation succeeds, the weights and the mean are exact, but the weighted covariance of the points is the diagonal of the covariance divided by `2.05 d`. C13: when a diagonal entry is not positive, the fallback fails too and `LinAlgError` reaches the caller."
  },
  {
   "property": "C14",
   "status": "partial",
   "theorems": [
    "VGPA.C14_formula_partial",
    "VGPA.C14_constant_violated"
   ],
   "note": "C14 is false of the code: a constant function gets a non-zero \"covariance\". C14, what holds: an exact formula for the second output. With `n = 2 d + 1` weighted points and values `y_i`, it is `∑_i w_i (y_i - w_i ∑_j y_j) (y_i - w_i ∑_j y_j)ᵀ`, which is symmetric and positive semidefinite, but is not the weighted covariance (that would be centred at `∑_j w_j y_j`)."
  },
  {
   "property": "C15",
   "status": "proved",
   "theorems": [
    "VGPA.C15_fwd_construction",
    "VGPA.C15_bwd_construction"
   ],
   "note": "C15 (forward). `FwdOde(dt, method)` succeeds exactly when `dt > 0` and the method name is, up to letter case, a documented one; the object then holds that step and uses the named method. Otherwise it raises `ValueError`. C15 (backward). The same for `BwdOde`, which stores the lower-cased name."
  },
  {
   "property": "C16",
   "status": "proved",
   "theorems": [
    "VGPA.C16_forward_shapes",
    "VGPA.C16_backward_shapes"
   ],
   "note": "C16 (forward). For every method, in 1-D and n-D (`F` is arbitrary): if the offset series is non-empty and the linear series is long enough, the sweep succeeds, returns series of the length of the offset series and starts at `(m0, s0)`; otherwise it raises `IndexError`. \"Long enough\" is: at least as long as the offset series, or one shorter for Euler, or anything at all if there is only one time point. C16 (backward). The multiplier series have the length of the gradient series, and the last entry is zero; the sweep fails (with `IndexError`) exactly when there are at least two time points and one of the other series is too short."
  },
  {
   "property": "C17",
   "status": "partial",
   "theorems": [
    "VGPA.C17_forward_steps_nD_partial",
    "VGPA.C17_forward_steps_1D_partial",
    "VGPA.C17_rk2_variance_violated"
   ],
   "note": "C17 is violated by RK2's variance. With `dt = 1`, constant `a = 2`, `Sigma = 1`, `s0 = 1` over two points, the explicit midpoint rule gives the variance 4, RK2 returns 0. The cause is `fun_st(sk, sk, sigma)` in `/repo/src/numerics/runge_kutta2.py:96`. C17 (n-D, partial). Consecutive entries of a forward sweep in `d` dimensions are related by one textbook step for `dm/dt = -A m + b` and `dS/dt = -A S - S A' + Sigma`, where `A(t)`, `b(t)` are the piecewise linear interpolants of the given series. Full statement: for all four methods. Missing: the covariance series of RK2, where it is false (`C17_rk2_variance_violated`). C17 (1-D, partial). The same for scalar series, `dm/dt = -a m + b`, `ds/dt = -2 a s + Sigma`."
  },
  {
   "property": "C18",
   "status": "proved",
   "theorems": [
    "VGPA.C18_backward_steps_nD",
    "VGPA.C18_backward_steps_1D"
   ],
   "note": "C18 (n-D). Consecutive entries of a backward sweep are related by one textbook step with step `-dt` for `d lam/dt = -dE/dm + lam A'` and `d psi/dt = -dE/dS + psi A + A' psi`, plus the observation jump at the new time. C18 (1-D)."
  },
  {
   "property": "C19",
   "status": "proved",
   "theorems": [
    "VGPA.C19_covariance_symmetric",
    "VGPA.C19_psi_symmetric"
   ],
   "note": "C19 (forward). With symmetric `s0` and `Sigma` every covariance returned by any of the four forward methods is symmetric, whatever the linear parameters. C19 (backward). With symmetric gradients and jumps every `psi` returned by any of the four backward methods is symmetric."
  },
  {
   "property": "C20",
   "status": "proved",
   "theorems": [
    "VGPA.C20_forward_causal",
    "VGPA.C20_forward_causal_euler",
    "VGPA.C20_backward_causal"
   ],
   "note": "C20 (forward). Two runs, possibly of different lengths, whose parameters agree at the indices `0..k` have the same moments at index `k` (all methods, 1-D and n-D). C20 (forward, Euler). For Euler the moments at index `k` depend only on indices `< k`."
  },
  {
   "property": "C21",
   "status": "partial",
   "theorems": [
    "VGPA.C21_mean_equilibrium_nD",
    "VGPA.C21_mean_equilibrium_1D",
    "VGPA.C21_covariance_equilibrium_nD_partial",
    "VGPA.C21_variance_equilibrium_1D_partial",
    "VGPA.C21_rk2_violated"
   ],
   "note": "C21 is violated by RK2: `a = 2`, `s0 = 1`, `Sigma = 4 = 2 a s0`, `dt = 1` gives the variances `1, -3`: the stationary variance is left, and a negative variance is returned. C21 (covariance, n-D, partial). Constant linear parameter with `A S0 + S0 A' = Sigma` keeps the covariance at `S0`, for Euler, Heun and RK4. Full statement: for all four methods. False for RK2, see `C21_rk2_violated`. C21 (variance, 1-D, partial)."
  },
  {
   "property": "C22",
   "status": "proved",
   "theorems": [
    "VGPA.C22_forward_1D_nD_agree",
    "VGPA.C22_backward_1D_nD_agree"
   ],
   "note": "C22 (forward). The n-D code on 1x1 data computes the 1-D result, for every method and input, including the failing ones. C22 (backward)."
  },
  {
   "property": "C23",
   "status": "proved",
   "theorems": [
    "VGPA.C23_mean_superposition_nD",
    "VGPA.C23_mean_superposition_1D",
    "VGPA.C23_multiplier_superposition_nD",
    "VGPA.C23_multiplier_superposition_1D"
   ],
   "note": "C23 (forward mean, n-D). For fixed linear parameters the mean series is linear in `(m0, b)`: the run for a linear combination of initial means and offset series is the linear combination of the runs (initial covariances and noise play no role). C23 (forward mean, 1-D)."
  },
  {
   "property": "C24",
   "status": "proved",
   "theorems": [
    "VGPA.C24_mean_closed_form",
    "VGPA.C24_mean_closed_form_zero",
    "VGPA.C24_mean_closed_form_nD",
    "VGPA.C24_mean_converges"
   ],
   "note": "C24 (closed form, 1-D). With constant parameters `a`, `b` and an equilibrium `m*` (`a m* = b`), the mean at index `k` is `m* + R(-a dt)^k (m0 - m*)`, `R` the Taylor polynomial of `exp` of degree 1 (Euler), 2 (Heun, RK2), 4 (RK4). C24 (closed form, no restoring force). With `a = 0` the mean at index `k` is `m0 + k dt b`."
  },
  {
   "property": "C25",
   "status": "partial",
   "theorems": [
    "VGPA.C25_variance_closed_form_partial",
    "VGPA.C25_covariance_closed_form_nD_partial",
    "VGPA.C25_rk2_violated"
   ],
   "note": "C25 is violated by RK2. With `a = 1`, `Sigma = 2`, so `s* = 1`, `dt = 1`, `s0 = 2`, the closed form with `R` of degree two gives `1 + R(-2) = 2` at index 1, the code returns `6`. C25 (1-D, partial). With a constant linear parameter `a` and an equilibrium variance `s*` (`2 a s* = Sigma`) the variance at index `k` is `s* + R(-2 a dt)^k (s0 - s*)`, for Euler, Heun and RK4. Full statement: all four methods; false for RK2, see `C25_rk2_violated`. C25 (n-D, partial). With the Lyapunov operator `L S = A S + S A'` and `L S* = Sigma`, the covariance at index `k` is `S* + R(-dt L)^k (S0 - S*)`, for Euler, Heun and RK4."
  },
  {
   "property": "C26",
   "status": "partial",
   "theorems": [
    "VGPA.C26_euler_adjoint_1D",
    "VGPA.C26_euler_adjoint_of_transposed",
    "VGPA.C26_euler_adjoint_nD_partial",
    "VGPA.C26_nonsymmetric_violated",
    "VGPA.C26_euler_adjoint_covariance"
   ],
   "note": "C26 is violated in n-D for non-symmetric linear parameters. `d = 2`, three grid points, `dt = 1`, `A = [[0,1],[0,0]]`, `m0 = 0`, offsets `(0,1)` then 0, gradient `(1,0)` at the last point: the left side of the identity is `-1`, the right side `0`. C26 (n-D, partial). When all linear parameters are symmetric, the Euler backward sweep is the exact discrete adjoint of the Euler forward mean sweep. Full statement: for arbitrary linear parameters. False: see `C26_nonsymmetric_violated`; the repository's auxiliary function multiplies `lam` by `A'` from the right (i.e. computes `A lam`) where the adjoint of `dm/dt = -A m + b` needs `A' lam`."
  },
  {
   "property": "C27",
   "status": "partial",
   "theorems": [
    "VGPA.C27_last_observation_violated",
    "VGPA.C27_observation_influences_partial"
   ],
   "note": "C27 is violated. Whatever the inputs and the method, the observation gradients at the last grid point have no effect at all: replacing them by anything leaves both multiplier series unchanged. C27 (partial). At every other grid point `t < N - 1` the observation gradient does influence the multipliers: replacing `om[t]` and `os[t]` changes `lam[t]` and `psi[t]` by exactly the difference (and nothing at later points). Full statement: at every grid point, including the last; false there."
  },
  {
   "property": "C28",
   "status": "proved",
   "theorems": [
    "VGPA.C28_variance_positive",
    "VGPA.C28_condition_needed"
   ],
   "note": "C28. In 1-D, for `s0 > 0`, `Sigma > 0`, `dt > 0` and `0 ≤ 2 a dt ≤ 1` for every linear parameter, every variance returned by any of the four methods is strictly positive. The step condition is needed: a large step gives a negative variance (Euler, `a = 2`, `dt = 1`)."
  },
  {
   "property": "C29",
   "status": "proved",
   "theorems": [
    "VGPA.C29_dw_history",
    "VGPA.C29_ou_history",
    "VGPA.C29_assignments",
    "VGPA.C29_construction"
   ],
   "note": "C29: after construction and any history of calls, a `DoubleWell` object has a positive noise and the inverse that belongs to it. C29: the same for `OrnsteinUhlenbeck`, whose drift parameter also stays positive."
  },
  {
   "property": "C30",
   "status": "partial",
   "theorems": [
    "VGPA.C30_matrix_partial",
    "VGPA.C30_vector_partial",
    "VGPA.C30_shapes_partial",
    "VGPA.C30_scalar_violated"
   ],
   "note": "C30 fails for the scalar form: every number is rejected with `ValueError`, by both classes. C30: a symmetric matrix argument is accepted exactly when it is positive definite, and then `inverse_sigma` is its inverse; otherwise `RuntimeError`. Part of C30; the scalar form fails, see `C30_scalar_violated`. C30: a vector argument of the right length gives the diagonal matrix when all entries are positive, and `RuntimeError` otherwise."
  },
  {
   "property": "C31",
   "status": "partial",
   "theorems": [
    "VGPA.C31_assignment_partial",
    "VGPA.C31_indefinite_violated",
    "VGPA.C31_witness_violated",
    "VGPA.C31_nonsymmetric_violated",
    "VGPA.C31_history63_partial",
    "VGPA.C31_history96_partial"
   ],
   "note": "C31 fails for every symmetric matrix that is not positive definite but has a positive direction: the assignment raises `LinAlgError` after it has stored the new matrix, and `inverse_sigma` still belongs to the old one. Such matrices exist, and the object is then inconsistent: starting from a consistent `Lorenz63` object, the failed assignment of `diag(1, 1, -1)` changes `sigma`, and `inverse_sigma` is no longer its inverse. C31 fails for non-symmetric matrices too: the assignment succeeds, because only the lower triangle is read when the inverse is computed, and `inverse_sigma` is not the inverse of `sigma`. C31 (partial): assigning a symmetric matrix that is positive definite succeeds and updates both the matrix and its inverse; assigning something that is not a square matrix of the right size, or a matrix without a positive eigenvalue, raises and changes nothing. Missing: symmetric matrices with eigenvalues of both signs (or zero and positive ones), where it fails, see `C31_indefinite_violated`, and non-symmetric matrices, see `C31_nonsymmetric_violated`. C31 (partial) over histories of `Lorenz63`: if every assigned noise is of a covered kind, then after any history of calls on a constructed object `inverse_sigma` is the inverse of `sigma`."
  },
  {
   "property": "C32",
   "status": "proved",
   "theorems": [
    "VGPA.C32_time_window"
   ],
   "note": "C32: with `t0 <= tf` and `dt > 0`, `make_trajectory` succeeds for every class and leaves a window `t0, t0 + dt, ..., t0 + N dt` whose last point lies in `[tf, tf + dt)`, and a path with one entry per window point. If `tf` is `M` steps after `t0`, then `N = M`. `time_step` returns `dt` when there are at least two points."
  },
  {
   "property": "C33",
   "status": "proved",
   "theorems": [
    "VGPA.C33_double_well",
    "VGPA.C33_ornstein_uhlenbeck",
    "VGPA.C33_lorenz63",
    "VGPA.C33_lorenz96"
   ],
   "note": "C33 for `DoubleWell`. C33 for `OrnsteinUhlenbeck`."
  },
  {
   "property": "C34",
   "status": "partial",
   "theorems": [
    "VGPA.C34_covariance_partial",
    "VGPA.C34_covariance_violated"
   ],
   "note": "C34 fails: a symmetric positive definite noise matrix for which the increments do not have the requested covariance. C34: the noise increments `C z`, with `z` standard normal, have covariance `C * Cᵀ`. For a symmetric positive definite `sigma` this is `sigma * dt` exactly when `sigma` is diagonal: `C` is the upper Cholesky factor, for which `Cᵀ * C`, not `C * Cᵀ`, is `sigma * dt`. So the property holds for diagonal noise and fails for every other."
  },
  {
   "property": "C35",
   "status": "partial",
   "theorems": [
    "VGPA.C35_reproducible_partial",
    "VGPA.C35_seed_zero_violated"
   ],
   "note": "C35 does not hold for the seed zero: the truth test `if r_seed:` treats it as \"no seed\". With the same parameters, the same seed zero and the same calls, two `OrnsteinUhlenbeck` objects produce different paths. C35 (partial): with a given integer seed other than zero, two objects of the same class with the same parameters are indistinguishable: construction gives the same result and every sequence of calls gives the same results, whatever the entropy of the operating system. Missing: the seed zero, for which it fails, see `C35_seed_zero_violated`."
  },
  {
   "property": "C36",
   "status": "proved",
   "theorems": [
    "VGPA.C36_guarded_accessors",
    "VGPA.C36_read_back"
   ],
   "note": "C36: whatever has been called on an object since its construction, `sample_path`, `time_window`, `time_step` and `collect_obs` raise `NotImplementedError` exactly when what they need has not been given yet, by an assignment or by a successful `make_trajectory`. The accessors return what was assigned last (read-your-writes)."
  },
  {
   "property": "C37",
   "status": "proved",
   "theorems": [
    "VGPA.C37_indices_1d",
    "VGPA.C37_indices_nd"
   ],
   "note": "C37, C39 on one dimensional paths: with an accepted density that gives at least one observation, `collect_obs` returns `floor(T * n_obs)` strictly increasing, equidistant indices, and each observation is the path value plus the square root of the noise variance times a fresh draw. The noise comes back unchanged and so does the path. C37 on multivariate paths, unmasked or with a mask that selects at least two components."
  },
  {
   "property": "C38",
   "status": "proved",
   "theorems": [
    "VGPA.C38_density_1d",
    "VGPA.C38_density_nd"
   ],
   "note": "C38 on one dimensional paths: for a density `n_obs >= 0`, `collect_obs` raises `ValueError` exactly when the density exceeds `floor(1/dt)`. An accepted density that gives at least one observation never fails. (One that gives no observation at all makes numpy raise `TypeError`.) C38 on multivariate paths."
  },
  {
   "property": "C39",
   "status": "partial",
   "theorems": [
    "VGPA.C39_observations_1d",
    "VGPA.C39_observations_nd_partial",
    "VGPA.C39_single_component_violated"
   ],
   "note": "C39 fails for every mask that selects one component: with two or more observations, `collect_obs` raises `ValueError` whatever the path and the noise. C39 (partial) on multivariate paths: with two or more observed components each observation is the observed part of the path value plus a square root of the returned noise matrix times fresh draws, and the path is not modified. Missing: masks that select one component, where it fails, see `C39_single_component_violated`."
  },
  {
   "property": "C40",
   "status": "proved",
   "theorems": [
    "VGPA.C40_energy",
    "VGPA.C40_nonneg"
   ],
   "note": "C40: `OrnsteinUhlenbeck.energy` integrates the expected squared drift mismatch over `2 sigma` with the trapezoidal rule; `Ef` and `Edf` are the expected drift and its expected derivative. C40: hence the energy is non-negative."
  },
  {
   "property": "C41",
   "status": "proved",
   "theorems": [
    "VGPA.C41_moment_gradient",
    "VGPA.C41_theta_gradient",
    "VGPA.C41_sigma_gradient"
   ],
   "note": "C41: for every perturbation direction of the means and variances, the returned gradients give the exact derivative of the returned `Esde`. C41: the returned `theta` gradient is the exact derivative of the returned `Esde`."
  },
  {
   "property": "C42",
   "status": "partial",
   "theorems": [
    "VGPA.C42_average_drift",
    "VGPA.C42_energy_partial",
    "VGPA.C42_energy_violated"
   ],
   "note": "C42 does not hold: at the bottom of a well (`m = theta = 1`, `s = 0`, `a = b = 0`) the drift and its approximation agree, the expected squared mismatch is zero, and the returned energy is `-4`. C42 (partial): the returned `Esde` is the trapezoidal integral of `(E[(f - g)^2] - 8 E[x^6]) / (2 sigma)`. Missing: the code multiplies `E[x^6]` by 8 where the square of the drift has 16, so the claimed value is not what is returned (see `C42_energy_violated`)."
  },
  {
   "property": "C43",
   "status": "partial",
   "theorems": [
    "VGPA.C43_moment_gradient_partial",
    "VGPA.C43_moment_gradient_violated",
    "VGPA.C43_theta_gradient",
    "VGPA.C43_sigma_gradient"
   ],
   "note": "C43 does not hold for the means: on the witness object the returned `dEsde_dm` is zero, while the returned `Esde` has derivative `-24` when both means move together. C43 (partial): the returned `dEsde_dm`, `dEsde_ds` are the exact partial derivatives of the true pointwise energy `E[(f - g)^2] / (2 sigma)`. Missing: they are not the derivatives of the value that `Esde` integrates, see `C43_moment_gradient_violated`."
  },
  {
   "property": "C44",
   "status": "proved",
   "theorems": [
    "VGPA.C44_energy",
    "VGPA.C44_nonneg"
   ],
   "note": "C44: the energy is the trapezoidal integral of half the expected squared drift mismatches, each weighted with the diagonal entry of the stored inverse noise. The expectations are genuine (the integrands are integrable). C44: hence the energy is non-negative when the noise matrix is positive definite."
  },
  {
   "property": "C45",
   "status": "proved",
   "theorems": [
    "VGPA.C45_mean_gradient"
   ],
   "note": "C45: the returned `dEsde_dm` gives the exact derivative of the returned `Esde` in every direction of the means."
  },
  {
   "property": "C46",
   "status": "partial",
   "theorems": [
    "VGPA.C46_upper_triangle_partial",
    "VGPA.C46_convention_violated"
   ],
   "note": "C46 fails: there are a model, a positive definite covariance and a symmetric perturbation for which the returned `dEsde_ds`, summed over all pairs, is not the derivative of the returned `Esde`. C46, the part that holds: for a symmetric perturbation `D` of the covariances the derivative of the returned `Esde` is the sum of `dEsde_ds[i, j] * D[i, j]` over the pairs `i ≤ j` only, so the entries off the diagonal are twice those of the matrix gradient. Missing: the sum over all `i, j`, see `C46_convention_violated`."
  },
  {
   "property": "C47",
   "status": "proved",
   "theorems": [
    "VGPA.C47_averages",
    "VGPA.C47_theta_gradient"
   ],
   "note": "C47: `Ef` and `Edf` hold `E[f]` and `E[df/dx]`, and `dEsde_dtheta[j]` is the trapezoidal integral of the expected mismatches times the derivative of the drift with respect to parameter `j`, weighted with the inverse noise. C47: the returned `dEsde_dtheta` is the gradient of the returned `Esde` with respect to the drift parameters, as they are set through the `theta` property."
  },
  {
   "property": "C48",
   "status": "proved",
   "theorems": [
    "VGPA.C48_averages",
    "VGPA.C48_theta_integrand"
   ],
   "note": "C48: in every dimension `d ≥ 4`, the `Ef` and `Edf` returned by `Lorenz96.energy` are the expected drift and the expected Jacobian under the normal law. C48: the `theta` gradient of the code integrates the expected mismatch, component by component. Note that the forcing is one number, so the derivative of `Esde` with respect to it is the sum of the returned components."
  },
  {
   "property": "C49",
   "status": "partial",
   "theorems": [
    "VGPA.C49_inner_partial",
    "VGPA.C49_batch_violated"
   ],
   "note": "C49 fails for every batch size of at least two, in every dimension of at least three: `np.roll` without an axis takes the neighbours of the first and last columns from the adjacent rows. C49, the part that holds: every entry that is not in the first two columns or the last column, and every entry of a batch with one row, is the drift of its own row. Missing: the first two columns and the last column of batches with two rows or more, see `C49_batch_violated`."
  },
  {
   "property": "C50",
   "status": "proved",
   "theorems": [
    "VGPA.C50_nonneg"
   ],
   "note": "C50: whatever the arguments, when `Lorenz96.energy` returns, its `Esde` is non-negative."
  },
  {
   "property": "C51",
   "status": "partial",
   "theorems": [
    "VGPA.C51_energy_partial",
    "VGPA.C51_default_operator",
    "VGPA.C51_gradients_partial",
    "VGPA.C51_operator_violated",
    "VGPA.C51_number_operator"
   ],
   "note": "C51 fails for other operators: the returned energy ignores the operator, although the returned gradient does not. C51, the part that holds: with the operator `1` the returned energy is the sum over the observations of the expected negative log-likelihood. Missing: other operators, see `C51_operator_violated`. C51, the part that holds, for the gradients: with the operator `1` the returned arrays `dEobs_dm`, `dEobs_ds` are the gradient of the returned energy, entries at times without observation being zero."
  },
  {
   "property": "C52",
   "status": "partial",
   "theorems": [
    "VGPA.C52_support_partial",
    "VGPA.C52_noise_gradient_violated"
   ],
   "note": "C52 fails, and not only for some inputs: whenever the noise variance `R` is at least one, the entry returned for an observation is strictly smaller than the derivative, with respect to the noise variance, of the energy of that observation (operator `1`, a single observation at the first of `n + 1` grid points). C52, the part that holds: the third gradient is zero outside of the observation times, and its entry at an observation time depends only on that observation and the moments there. Missing: being the derivative with respect to the noise variance, see `C52_noise_gradient_violated`."
  },
  {
   "property": "C53",
   "status": "partial",
   "theorems": [
    "VGPA.C53_energy_partial",
    "VGPA.C53_default_operator",
    "VGPA.C53_time_index_violated",
    "VGPA.C53_correlated_noise_violated"
   ],
   "note": "C53 fails: the variances are taken at the position of the observation in the list instead of its time. Here unit noise, one observation at time index 1, covariances `1` and `2`. C53 fails: entries of the inverse noise covariance off the diagonal are ignored. Here a correlated positive definite noise covariance and a correlated state covariance at the first time. C53, the part that holds: with the identity operator, a diagonal noise covariance, and variances (the diagonals of the covariances) that at the position of each observation in the list are the same as at its time, the returned energy is the expected negative log-likelihood of the observations. Missing: everything else, see `C53_time_index_violated` and `C53_correlated_noise_violated`."
  },
  {
   "property": "C54",
   "status": "proved",
   "theorems": [
    "VGPA.C54_values",
    "VGPA.C54_exact_derivatives",
    "VGPA.C54_number_operator",
    "VGPA.C54_matrix_operator"
   ],
   "note": "C54: with the identity operator and positive definite noise, the returned gradients are `R⁻¹ (m - y)` and `R⁻¹ / 2` at the observation times and zero elsewhere. C54: these are the exact derivatives of the expected negative log-likelihood of the observations, for every direction of the means and every symmetric direction of the covariances."
  },
  {
   "property": "C55",
   "status": "partial",
   "theorems": [
    "VGPA.C55_unit_variance_partial",
    "VGPA.C55_violated",
    "VGPA.C55_negative_violated"
   ],
   "note": "C55 fails for every variance other than one, for every mean and every prior. C55 fails: with agreeing moments and a variance above one the returned number is negative. C55, the part that holds: the returned number is the Kullback-Leibler divergence if the variance `s0` is one, and in general differs from it by `log(s0) / 2`. Missing: the other variances, see `C55_violated`."
  },
  {
   "property": "C56",
   "status": "partial",
   "theorems": [
    "VGPA.C56_equal_means_partial",
    "VGPA.C56_one_component_partial",
    "VGPA.C56_mean_violated",
    "VGPA.C56_covariance_violated"
   ],
   "note": "C56 fails when the means differ: two dimensions, unit covariances, means `(1, 0)` and `0`. The returned number is twice the divergence. C56 fails for covariances that do not commute: here the call raises `LinAlgError` although both matrices are positive definite, so that the divergence exists. C56, the part that holds: if the means agree and the product `tau0 · s0⁻¹` is symmetric (the two covariances commute) the returned number is the Kullback-Leibler divergence. Missing: different means, see `C56_mean_violated`, and covariances that do not commute, see `C56_covariance_violated`. C56, the part that holds in one dimension: with vectors and matrices of size one the returned number is the Kullback-Leibler divergence for all means and variances."
  },
  {
   "property": "C57",
   "status": "proved",
   "theorems": [
    "VGPA.C57_one_dim",
    "VGPA.C57_several_dims"
   ],
   "note": "C57 in one dimension: the returned pair is the multipliers plus the partial derivatives of the Kullback-Leibler divergence with respect to the mean and the variance. C57 in `d` dimensions: the results are the multipliers plus the gradients of the divergence with respect to the mean and, along symmetric directions, the covariance."
  },
  {
   "property": "C58",
   "status": "proved",
   "theorems": [
    "VGPA.C58_unpack_pack_nd",
    "VGPA.C58_pack_unpack_nd",
    "VGPA.C58_unpack_pack_1d",
    "VGPA.C58_pack_unpack_1d"
   ],
   "note": "C58, several dimensions. A vector of length `n * d * (d + 1)` unpacks, in `free_energy` and in `gradient` alike, into `n` matrices and `n` vectors in C order: entry `(i, j)` of matrix `k` is `x[k d² + i d + j]`, entry `i` of vector `k` is `x[n d² + k d + i]`. Packing these arrays again gives `x`. Any other length raises `ValueError`. C58, several dimensions, the other direction: packing `n` matrices and `n` vectors gives a vector of length `n * d * (d + 1)`, and unpacking it returns them."
  },
  {
   "property": "C59",
   "status": "proved",
   "theorems": [
    "VGPA.C59_history_independent",
    "VGPA.C59_sum_of_energies"
   ],
   "note": "C59, purity: whatever calls were made before, and whether they succeeded or raised, `free_energy(x)` returns the same value (or raises the same exception) as on a fresh object. C59, value: a returned free energy is the sum of the prior energy of the initial moments, the energy of the process and the energy of the observations, both taken at the moments that the forward sweep produces from the unpacked parameters; these moments are the ones that `arg_out` shows afterwards."
  },
  {
   "property": "C60",
   "status": "proved",
   "theorems": [
    "VGPA.C60_history_independent",
    "VGPA.C60_cached",
    "VGPA.C60_fresh"
   ],
   "note": "C60: whatever calls were made before, `gradient(x, eval_fun=True)` returns the same value (or raises the same exception) as on a fresh object. C60: `gradient(x)` returns that same value whenever the latest evaluation of the free energy was at `x` (by `free_energy(x)` or by `gradient(x, eval_fun=True)`) and did not raise, however many non-evaluating calls, at whatever points, came in between."
  },
  {
   "property": "C61",
   "status": "proved",
   "theorems": [
    "VGPA.C61_ornstein_uhlenbeck",
    "VGPA.C61_double_well",
    "VGPA.C61_lorenz63",
    "VGPA.C61_lorenz96"
   ],
   "note": "C61 for `OrnsteinUhlenbeck` objects, all four integrators, any observations at distinct grid points in increasing order. C61 for `DoubleWell` objects. (The derivatives are those of the documented energy density, although the energy value that `energy` returns differs from it, see `C42_energy_violated`.)"
  },
  {
   "property": "C62",
   "status": "partial",
   "theorems": [
    "VGPA.C62_1d_partial",
    "VGPA.C62_1d_violated",
    "VGPA.C62_nd",
    "VGPA.C62_nd_mean_partial",
    "VGPA.C62_nd_violated"
   ],
   "note": "C62 fails in one dimension: with one observation `y` in the middle of three points, every interpolating curve is `y` at all three, but the mean of the Euler sweep that starts at `y` is at the second point `y + dt (1 - 2 sigma) y`. C62 fails for correlated noise: the covariance that the Euler sweep reaches from `0.25 I` in one step differs from `0.25 I`. C62 in one dimension, the part that holds: `2 n` parameters; the linear part is constant and makes `0.25` the stationary variance; the offset is the interpolating curve itself, which passes through the observations. Missing: the mean of the forward sweep does not follow the curve, see `C62_1d_violated`. C62 in `d` dimensions for an arbitrary noise matrix: the mean follows the curve exactly, and the variances `0.25` of the components are stationary for the covariance `0.25 I`. Missing: the covariances are not stationary when the noise is correlated, see `C62_nd_violated`."
  },
  {
   "property": "C63",
   "status": "partial",
   "theorems": [
    "VGPA.C63_interior_1d_partial",
    "VGPA.C63_interior_nd_partial",
    "VGPA.C63_collect_obs_1d_partial",
    "VGPA.C63_collect_obs_nd_partial",
    "VGPA.C63_violated"
   ],
   "note": "C63 fails: on a window of five points with step `1/4`, `collect_obs` accepts four observations per time unit, and `initialization` then raises `ValueError`, for every path, noise, generator, and interpolation. C63, the part that holds, in one dimension: `initialization` succeeds exactly when no observation sits at the first or the last point of the window; otherwise `ValueError`. Missing: observations at the two end points. The same in `d` dimensions."
  },
  {
   "property": "C64",
   "status": "proved",
   "theorems": [
    "VGPA.C64_consistent_pair",
    "VGPA.C64_evaluated"
   ],
   "note": "C64: if the value of the objective at a point depends on the point only, the returned number is the value of the objective at the returned point. Every arithmetic, every gradient function, every way to leave the call. C64 without any assumption on the functions: the returned number is a number that the objective returned, when it was called with the returned point."
  },
  {
   "property": "C65",
   "status": "proved",
   "theorems": [
    "VGPA.C65_descent"
   ],
   "note": "C65: for every objective and every gradient function, right or wrong, the returned value is at most the value at the start point; the values recorded during the call (the first entries of `statistics[\"fx\"]`) do not increase, starting from the value at the start point, and end with the returned value."
  },
  {
   "property": "C66",
   "status": "proved",
   "theorems": [
    "VGPA.C66_never_raises_floats",
    "VGPA.C66_raises_nothing_else",
    "VGPA.C66_never_raises",
    "VGPA.C66_descent_step",
    "VGPA.C66_recorded_scale"
   ],
   "note": "C66 in double precision: with functions that never raise, the call never raises, whatever they return, NaN and infinities included. C66, the other case: whatever the two functions do, a call on an optimizer as the constructor makes it returns, or it raises an exception that one of the two functions has raised. It never divides by zero and never leaves its arrays."
  },
  {
   "property": "C67",
   "status": "proved",
   "theorems": [
    "VGPA.C67_counters"
   ],
   "note": "C67: after a call that returns, the counters have grown by exactly the numbers `a`, `b` of evaluations that the functions saw; and `a ≤ 1 + 3 max_it`, `b ≤ 1 + 2 max_it`."
  },
  {
   "property": "C68",
   "status": "proved",
   "theorems": [
    "VGPA.C68_no_stale_gradient"
   ],
   "note": "C68: optimizing a `VarGP` object gives the same results, exceptions, statistics and final object as with the gradient that re-evaluates everything at its argument."
  },
  {
   "property": "C69",
   "status": "partial",
   "theorems": [
    "VGPA.C69_state_partial",
    "VGPA.C69_violated"
   ],
   "note": "C69 fails: one iteration on the cubic from `0`. The step is rejected, the call returns `0`, and the shared state is that of the rejected point `-125/127`. C69, the part that holds: the state left behind is the one computed at the returned point, unless all iterations were used up; then it may be that of a rejected point with a larger objective. Missing: that exception, see `C69_violated`."
  },
  {
   "property": "C70",
   "status": "proved",
   "theorems": [
    "VGPA.C70_reasons",
    "VGPA.C70_reasons_real"
   ],
   "note": "C70: a call that returns has made `it ≤ max_it` complete iterations (and reached the locals `L`), and returns for one of four reasons. Either all iterations are used up, and `MaxIt` keeps its value (initially `max_it`). Or, in iteration `it + 1`, which is the value of `statistics[\"MaxIt\"]`, the squared norm of the search direction is below machine precision and the current point is returned; or the returned point differs from the previous one by a step with all entries at most `x_tol`, and the two values by at most `f_tol`; or the gradient just computed at the returned point has a squared norm that is close to zero. (`dirOf L` is the search direction; `realArith` gives the comparisons their usual meaning.) C70 with the meaning of the comparisons spelled out: for a deterministic objective `F` and gradient `G`, a call that returns before the iterations are used up returns a point `x` such that the last search direction has a squared norm below `2^-52`, or no coordinate has changed by more than `x_tol` in the last step and the objective by no more than `f_tol`, or the gradient at `x` has a squared norm of at most `1e-8`. (`y`: the point before.)"
  },
  {
   "property": "C71",
   "status": "proved",
   "theorems": [
    "VGPA.C71_convex_quadratic"
   ],
   "note": "C71: on a convex quadratic with its exact gradient every iteration lowers the objective strictly (a rejected step would record the old value again), and the recorded scales are `max(2^-j, 1e-15)`, `j = 0, 1, ...`: they are halved every time, as after successful steps only."
  },
  {
   "property": "C72",
   "status": "partial",
   "theorems": [
    "VGPA.C72_violated",
    "VGPA.C72_keyword_partial",
    "VGPA.C72_arguments_partial"
   ],
   "note": "C72 fails: with a gradient function that has no parameter `eval_fun` (so that calling it with one raises `TypeError`, as does a function with further required parameters), every call with at least one iteration from a point with a gradient that is not tiny raises `TypeError`. C72, the part that holds: with a gradient function that accepts `eval_fun=True`, the call returns. C72, the part that holds: further arguments reach every evaluation of the objective and every plain evaluation of the gradient; the call is the same as with the arguments filled in beforehand. Missing: the evaluation of the gradient at the trial point, which gets none of them."
  },
  {
   "property": "C73",
   "status": "partial",
   "theorems": [
    "VGPA.C73_max_it_partial",
    "VGPA.C73_violated"
   ],
   "note": "C73 fails: with `max_it = 2`, a first call from the stationary point `1/4` stops in its first iteration; a second call, from `0`, uses both iterations, and `MaxIt` still says `1`. C73, the part that holds: if a call leaves early, `MaxIt` is the number of iterations begun by this call; and if the entry still has its initial value `max_it` when the call starts, it is the number of iterations begun in any case. Missing: a call that uses all iterations after an earlier call that did not, see `C73_violated`."
  },
  {
   "property": "C74",
   "status": "proved",
   "theorems": [
    "VGPA.C74_verdict",
    "VGPA.C74_exact_gradient_passes",
    "VGPA.C74_wrong_gradient_fails"
   ],
   "note": "C74: the checker never raises, prints exactly one verdict, and this is \"PASSED\" exactly when the Euclidean norm of the difference between the gradient function and the central differences, divided by the number of parameters, is at most `tol`. C74, consequence: the exact gradient of a function passes, if the tolerance is at least `M h² / 6` with `h = 1e-6` and `M` a bound on the third derivatives along the coordinate axes near `x`."
  },
  {
   "property": "C75",
   "status": "proved",
   "theorems": [
    "VGPA.C75_model_names"
   ],
   "note": "C75: a name that equals one of the four documented names up to letter case constructs that class (a `KeyError` of the constructor is reported as `ValueError`), for every other string `ValueError` is raised."
  },
  {
   "property": "C76",
   "status": "partial",
   "theorems": [
    "VGPA.C76_failed_run_keeps_output_py",
    "VGPA.C76_failed_run_keeps_output",
    "VGPA.C76_save_needs_run",
    "VGPA.C76_run_needs_setup_partial",
    "VGPA.C76_violated"
   ],
   "note": "C76 fails: the front end does not remember whether `setup()` went through. A first `setup()` that raises at the very end (the prior variance is `null`), a second one that raises early (unknown model name) but has stored its prior parameters by then, and `run()` goes ahead, although no `setup()` has succeeded. C76, first part, as far as it holds: in every history in which no `setup()` has succeeded and the prior parameters given fit the process, `run()` raises. Missing: histories with a `setup()` that fails when it multiplies the prior parameters, see `C76_violated`."
  },
  {
   "property": "C77",
   "status": "partial",
   "theorems": [
    "VGPA.C77_violated",
    "VGPA.C77_table_violated",
    "VGPA.C77_used_partial"
   ],
   "note": "C77 fails: on a new object, a successful `setup(params, data)` with user data is always followed by a `run()` that raises, because the noise of the observations is never stored. This holds for all data and parameters. C77 fails for the command line: a table with named columns, as `pandas.read_csv` returns it, makes `setup()` raise, on every object. C77, the part that holds: if `setup()` with user data succeeds and the following `run()` succeeds too, then the likelihood and the variational object of that run were built from the user's times and values. Missing: `run()` gets through only when an earlier `setup()` without data has left a noise level behind, which is then used for the user's data, see `C77_violated`."
  },
  {
   "property": "C78",
   "status": "proved",
   "theorems": [
    "VGPA.C78_round_trip",
    "VGPA.C78_load_missing",
    "VGPA.C78_after_run"
   ],
   "note": "C78: if there is something to save and the file can be opened, `save()` succeeds, `load` of that file returns exactly the keys of the output dictionary with equal contents (numbers as arrays with one entry), no other file changes, and saving once more writes the same file. C78: `load` returns a dictionary only for a file that exists; without a name it raises `RuntimeError`, for a missing file `FileNotFoundError`."
  },
  {
   "property": "C79",
   "status": "partial",
   "theorems": [
    "VGPA.C79_file_name",
    "VGPA.C79_history",
    "VGPA.C79_only_this_file",
    "VGPA.C79_violated",
    "VGPA.C79_different_files_partial"
   ],
   "note": "C79 fails in its last clause: the names `a b` and `a_b` are different and give the same file. C79, last clause, as far as it holds: different names without white space give different files."
  },
  {
   "property": "C80",
   "status": "proved",
   "theorems": [
    "VGPA.C80_validation",
    "VGPA.C80_content"
   ],
   "note": "C80: for a file holding a dictionary, the parameters are returned exactly when all nine keys are present, whatever else is in the dictionary; otherwise the error names one of the nine keys that is missing. The order in which Python goes through the set of keys is arbitrary. C80: what is returned is the content of the file, and nothing is returned when the file cannot be read or decoded."
  },
  {
   "property": "C81",
   "status": "proved",
   "theorems": [
    "VGPA.C81_status",
    "VGPA.C81_zero_iff",
    "VGPA.C81_exits",
    "VGPA.C81_missing_file",
    "VGPA.C81_data_option_fails"
   ],
   "note": "C81: the process ends with status 0 or 1; status 0 means that `main` returned, and then the parameter file was read and complete and `setup`, `run` and `save` were carried out without an exception, in this order, on one simulation. So a missing or undecodable parameter file, a missing key, and an exception in any of the steps all give status 1. C81, the converse too: the status is 0, with these files afterwards, exactly if a session was completed that leaves these files."
  },
  {
   "property": "C82",
   "status": "proved",
   "theorems": [
    "VGPA.C82_lorenz63",
    "VGPA.C82_lorenz96"
   ],
   "note": "C82 for `Lorenz63`: for every symmetric perturbation `D` of a positive definite noise matrix, assigned through the `sigma` property, the derivative of the returned `Esde` is the sum of `dEsde_dsigma[i, j] * D[i, j]`. C82 for `Lorenz96`, in every dimension, for positive definite covariances."
  },
  {
   "property": "C83",
   "status": "partial",
   "theorems": [
    "VGPA.C83_diagonal_partial",
    "VGPA.C83_correlated_violated"
   ],
   "note": "C83 fails when the noise of two components is correlated: the returned energy then ignores the entries of `Σ⁻¹` off the diagonal. The witness has two time points, a positive definite noise matrix with its inverse, and unit covariances. C83, the part that holds: for a diagonal noise matrix the energy of `Lorenz63` is the trapezoidal integral of `E[(f - g)ᵀ Σ⁻¹ (f - g)] / 2`. Missing: noise matrices with correlations, see `C83_correlated_violated`."
  },
  {
   "property": "C84",
   "status": "proved",
   "theorems": [
    "VGPA.C84_reported_energy"
   ],
   "note": "C84: after a successful `run()`, the stored `fx` is the free energy of the stored arrays `at`, `bt` (laid out one after the other), and is at most the free energy at the parameters that the optimizer started from."
  },
  {
   "property": "C85",
   "status": "partial",
   "theorems": [
    "VGPA.C85_stored_moments_partial",
    "VGPA.C85_stored_moments_violated"
   ],
   "note": "C85 does not hold: there is a valid configuration and a random stream such that, whichever interpolating curve is used and whatever happened to the simulation before, `setup` and `run()` succeed, and the stored variances `st` are not the ones that the chosen integrator (Euler) gives for the stored `at`: already the second one differs. C85, as far as it holds: after a successful `run()` all moments and multipliers in the output are the ones that one evaluation of the free energy at the stored `at`, `bt` gives. Missing: runs that use up all 500 iterations of the optimizer; then they may be those of another vector `y` with a larger free energy, see `C85_stored_moments_violated`."
  },
  {
   "property": "C86",
   "status": "proved",
   "theorems": [
    "VGPA.C86_output_shapes"
   ],
   "note": "C86: in every history, a successful `run()` leaves exactly eleven names in the output; each is a number or an array of the documented shape, where `n` is the number of points of the path and of the time window."
  },
  {
   "property": "C87",
   "status": "proved",
   "theorems": [
    "VGPA.C87_setup_and_run",
    "VGPA.C87_output"
   ],
   "note": "C87: for every valid one dimensional configuration, whatever the generator yields, whatever the interpolation returns and whatever happened to the simulation before, `setup(params)` succeeds, and so does the `run()` that follows. C87, the result: after any history, `setup` and `run` with a valid one dimensional configuration leave the eleven documented names in the output, the arrays with `N + 1` entries."
  },
  {
   "property": "C88",
   "status": "partial",
   "theorems": [
    "VGPA.C88_command_line_1d",
    "VGPA.C88_double_well_file",
    "VGPA.C88_lorenz_files_violated"
   ],
   "note": "C88 fails for the two Lorenz files: `setup()` raises `ValueError`, because a number is not accepted as noise, and the program exits with status 1 and writes nothing."
  },
  {
   "property": "C89",
   "status": "partial",
   "theorems": [
    "VGPA.C89_repeatable_partial",
    "VGPA.C89_violated"
   ],
   "note": "C89 does not hold for the seed zero: two new simulations get the same valid parameters, with the seed zero, both calls of `setup` succeed, and the moments with which the optimization starts differ. C89: two programs that make the same calls on a new simulation, where every `setup` gets a seed other than zero, see the same outcomes and end with the same output, internal data and files, whatever the operating system provides as randomness. Missing: the seed zero, for which it fails, see `C89_violated`."
  },
  {
   "property": "C90",
   "status": "proved",
   "theorems": [
    "VGPA.C90_setup_1d"
   ],
   "note": "C90: for every valid one dimensional configuration, whatever the simulation did before, `setup(params)` simulates the configured process: the stored object has the noise, the drift parameter, the window of the file, and its path is the Euler-Maruyama path. The observations are the values of the path at equidistant times, each with its own normal error of the configured variance. The mean of the first time point is the first value of the path with an error of standard deviation 0.1, its variance is 0.2. All these normal numbers are different members of one sequence, which the generator with the configured seed yields."
  },
  {
   "property": "C91",
   "status": "partial",
   "theorems": [
    "VGPA.C91_ornstein_uhlenbeck_partial",
    "VGPA.C91_double_well_partial",
    "VGPA.C91_ornstein_uhlenbeck_violated"
   ],
   "note": "C91 as stated fails for every valid Ornstein-Uhlenbeck configuration: whenever the variances of the reported parameters are non-negative, the reported number is not the free energy. C91 for the Ornstein-Uhlenbeck process: for every valid configuration with positive noise and prior variances, the reported `fx` is the free energy of the reported `at`, `bt`, up to the constant `-1/2 log(1/5)`, which comes from the prior term (see C55). Missing: without that constant it would be the free energy; runs in which an integrator makes a variance negative; stored moments of runs that use up the 500 iterations. C91 for the double well process: the same, and the integrand lacks `8 E[x^6]` (see C42)."
  },
  {
   "property": "C92",
   "status": "proved",
   "theorems": [
    "VGPA.C92_method"
   ],
   "note": "C92: with functions that compute `F` and `G`, a call that returns has made some number `k` of iterations of the scaled conjugate gradient method, returns the point reached and the value there, and the statistics show these iterations. It stops for the first of the three possible reasons: there is no direction to search in, the last iteration converged, or all iterations are used up."
  },
  {
   "property": "C93",
   "status": "partial",
   "theorems": [
    "VGPA.C93_gradient_statistic_partial",
    "VGPA.C93_violated"
   ],
   "note": "C93 fails: one iteration on `x^2/2` from `1` returns `1/2`; the entry of `fx` is the value there, the entry of `dfx` is `1`, the gradient at the start point. C93, what holds: entry `j` of `statistics[\"fx\"]` is the value at the point reached by iteration `j`, and entry `j` of `statistics[\"dfx\"]` is the sum of the absolute entries of the gradient at the point from which the last successful step was made (the start point if there was none). Missing: that the two entries belong to the same point, see `C93_violated`."
  },
  {
   "property": "C94",
   "status": "proved",
   "theorems": [
    "VGPA.C94_run_is_scg"
   ],
   "note": "C94: after a successful `run()`, the stored arrays `at` and `bt` are the point that the scaled conjugate gradient method reaches from the start point of the variational object, applied to its free energy and its gradient, with at most 500 iterations and the tolerances `1e-6` and `1e-8`; the stored `fx` is the free energy there."
  },
  {
   "property": "C95",
   "status": "proved",
   "theorems": [
    "VGPA.C95_options"
   ],
   "note": "C95: an optimizer made without options makes at most 150 iterations, and stops earlier only if there is no direction to search in or the last iteration converged with the tolerances `1e-6` for the point and `1e-8` for the value; an option that is given replaces its default, and has no effect on the other two."
  },
  {
   "property": "C96",
   "status": "partial",
   "theorems": [
    "VGPA.C96_ornstein_uhlenbeck_partial",
    "VGPA.C96_double_well_partial",
    "VGPA.C96_violated",
    "VGPA.C96_order_partial"
   ],
   "note": "C96 as stated is false: an Ornstein-Uhlenbeck process on four grid points with two observations, all parameters zero, moved in the direction of the last offset. The derivative of the free energy exists and is not the inner product of gradient and direction. C96 for the Ornstein-Uhlenbeck process with Euler's method: what holds instead of \"the gradient is the derivative of the free energy\". For every point and direction the difference is exactly the half steps at both ends and the shift of the observations by one step. Missing: these corrections are not zero (`C96_violated`); the other integrators. C96 for the double well process with Euler's method: the same, and the derivative of the missing part `8 E[x^6] / (2 sigma)` of the energy (C42) is missing from the derivative of the free energy, but not from the gradient."
  },
  {
   "property": "C97",
   "status": "proved",
   "theorems": [
    "VGPA.C97_setup_and_run",
    "VGPA.C97_output"
   ],
   "note": "C97: for every valid Lorenz-63 configuration, whatever the generator yields, whatever the interpolation returns and whatever happened to the simulation before, `setup(params)` succeeds, and so does the `run()` that follows. C97, the result: after any history, `setup` and `run` with a valid Lorenz-63 configuration leave the eleven documented names in the output, with arrays over `N + 1` time points."
  },
  {
   "property": "C98",
   "status": "proved",
   "theorems": [
    "VGPA.C98_setup_lorenz63"
   ],
   "note": "C98: for every valid Lorenz-63 configuration, whatever the simulation did before, `setup(params)` simulates the configured process: the stored object has the noise, the drift parameters and the window of the file, and its path is the Euler-Maruyama path, with increments made by the upper triangular factor of `dt sys`. The observations are the path at equidistant times; every component has its own normal error with the configured variance. The mean of the first time point is the first value of the path with errors of standard deviation 0.1, its covariance is 0.2 times the identity. All these normal numbers are different members of the sequence that the generator with the configured seed yields."
  },
  {
   "property": "C99",
   "status": "partial",
   "theorems": [
    "VGPA.C99_lorenz63_partial",
    "VGPA.C99_diagonal_partial",
    "VGPA.C99_violated"
   ],
   "note": "C99, why only `_partial`: take a valid Lorenz-63 configuration with a diagonal noise, and the two that arise from it by adding 1 to, or subtracting 1 from, each component of the prior mean. For at least one of the three the reported `fx` is not the free energy of the reported `at`, `bt` (`rk2` is left out because its covariances are not specified). C99: for every valid Lorenz-63 configuration, the reported `fx` is the free energy of the reported `at`, `bt`, up to the three differences `priorExtra3` (see C56), `obsExtra3` (see C53) and `driftExtra3` (see C83). Missing: without these differences it would be the free energy; runs in which an integrator makes a covariance that is not positive semidefinite; stored moments of runs that use up the 500 iterations. C99 for uncorrelated noise: the difference `driftExtra3` is zero, the other two remain."
  },
  {
   "property": "C100",
   "status": "proved",
   "theorems": [
    "VGPA.C100_command_line_lorenz63"
   ],
   "note": "C100: for every valid Lorenz-63 parameter file: when the output file can be opened, the program ends with status 0, and the output file can be loaded and holds the eleven documented arrays."
  },
  {
   "property": "C101",
   "status": "proved",
   "theorems": [
    "VGPA.C101_quadratic_minimum"
   ],
   "note": "C101: on a strictly convex quadratic, whatever call returns is close to the minimum: with `r = 1 - m² / (2 (L + 1) (L + m))`, the distance of the returned value to the value at any point `y` (so to the minimum) is at most the largest of: `r^max_it` times the distance at the start, `r / (1 - r)` times the tolerance for the value, and `1e-8 / (2 m)`, which stands for the test whether the gradient is zero."
  },
  {
   "property": "C102",
   "status": "proved",
   "theorems": [
    "VGPA.C102_setup_lorenz96"
   ],
   "note": "C102: for every valid Lorenz-96 configuration, whatever the simulation did before, `setup(params)` succeeds and simulates the configured process: the stored object has the noise, the forcing and the window of the file, and its path is the Euler-Maruyama path, with increments made by the upper triangular factor of `dt sys`. The observations are the path at equidistant times; every component has its own normal error with the configured variance. The mean of the first time point is the first value of the path with errors of standard deviation 0.1, its covariance is 0.2 times the identity. All these normal numbers are different members of the sequence that the generator with the configured seed yields."
  },
  {
   "property": "C103",
   "status": "partial",
   "theorems": [
    "VGPA.C103_run_partial",
    "VGPA.C103_completes_violated"
   ],
   "note": "C103, the negation: there is a valid Lorenz-96 configuration for which `setup` succeeds and `run()` always raises `LinAlgError`: already with the initial parameters that the code itself chooses, the covariance on the third grid point is negative. C103, what holds: for every valid Lorenz-96 configuration, whatever the generator yields, whatever the interpolation returns and whatever happened to the simulation before, the `run()` that follows `setup(params)` leaves the eleven documented names in the output, with arrays over `N + 1` time points, or it raises `LinAlgError` and changes nothing. Missing: that it always completes, see `C103_completes_violated`."
  },
  {
   "property": "C104",
   "status": "partial",
   "theorems": [
    "VGPA.C104_energy_violated",
    "VGPA.C104_energy_too_small_violated",
    "VGPA.C104_gradients_violated",
    "VGPA.C104_setup_partial",
    "VGPA.C104_run_violated",
    "VGPA.C104_setup_violated"
   ],
   "note": "C104 fails in the one case in which the likelihood accepts a mask, three observations of all three components: of each observation only the sum of the deviations in the three components counts. C104 fails for the energy in this case: when in each observation the deviations of the three components add up to zero without all being zero, the returned value is less than the expected negative log density of the observations. C104 fails for the gradients in this case: at an observation time the derivative by each component of the mean is the sum of the deviations of all components, and every entry of the derivative by the covariance is `3 / 2r`. (The derivatives of the expected negative log density are each component's own deviation, and `1 / 2r` on the diagonal and zero off it, `C54_values`.) C104, the negation: with a mask that selects no, two or all components (in the last case unless there are exactly three observations), for every valid configuration and every history, `setup(params)` succeeds and the `run()` that follows raises `ValueError`. C104, the negation for one component: with a mask that selects one component and two or more observations, `setup(params)` raises `ValueError` for every valid configuration and every history. C104, what holds: with a mask that selects no, two or all components of a Lorenz-63 process, `setup(params)` succeeds for every valid configuration and every history. It records the values of the path at equidistant times in the selected components, in their order, each with its own normal error of the configured variance. Missing: that `run()` then completes, see `C104_run_violated`."
  },
  {
   "property": "C105",
   "status": "proved",
   "theorems": [
    "VGPA.C105_covariance_positive",
    "VGPA.C105_variance_positive"
   ],
   "note": "C105. Let the process noise be positive definite and the initial covariance positive semidefinite. For every length `T` of the time window and every bound on the entries of the linear parameters there is a step size below which all four methods return only positive definite covariances (after the given first one), on every grid in the window and for every series of linear and offset parameters within the bound. C105 in one dimension: variances."
  },
  {
   "property": "C106",
   "status": "proved",
   "theorems": [
    "VGPA.C106_converges_1D",
    "VGPA.C106_converges_nD"
   ],
   "note": "C106 in one dimension. Let `a(t)`, `b(t)` be Lipschitz continuous on `[0, T]`, and let `m`, `s` solve `dm/dt = -a m + b`, `ds/dt = -2 a s + Sigma` there. Then all four methods, applied to the values of `a`, `b` on a grid with a small step `dt`, return means and variances that differ from `m`, `s` by at most a constant times `dt`. C106 in `d` dimensions, entry by entry."
  },
  {
   "property": "C107",
   "status": "proved",
   "theorems": [
    "VGPA.C107_converges_1D",
    "VGPA.C107_converges_nD"
   ],
   "note": "C107 in one dimension. Let `a`, `em`, `es` be Lipschitz continuous on `[0, T]`. Let `lam`, `psi` vanish at `T`, solve `dlam/dt = -em + lam a`, `dpsi/dt = -es + 2 psi a` (with derivatives from the left), and let their values at `t` exceed their limits from the right by `Jm t`, `Js t`. Then all four methods, applied to the values on a grid with a small step that contains all times with jumps, return multipliers that differ from `lam`, `psi` by at most a constant times `dt`. C107 in `d` dimensions, entry by entry, for the equations `dlam/dt = -em + A lam`, `dpsi/dt = -es + psi A + Aᵀ psi`."
  },
  {
   "property": "C108",
   "status": "partial",
   "theorems": [
    "VGPA.C108_ornstein_uhlenbeck",
    "VGPA.C108_double_well_partial",
    "VGPA.C108_double_well_violated",
    "VGPA.C108_lorenz63_partial",
    "VGPA.C108_lorenz63_violated",
    "VGPA.C108_lorenz96_partial",
    "VGPA.C108_lorenz96_violated"
   ],
   "note": "C108 does not hold for the double well: when the variances are positive, the number that `free_energy` returns stays below the claimed limit by a fixed amount, for all small steps. C108 does not hold for Lorenz-63: when the variances at the observations do not balance those at the start, the returned numbers stay away from the claimed limit by a fixed amount for all small steps. C108 does not hold for Lorenz-96: when the sum of the variances at the observations does not balance that at the start, then for at least one of the observation noises `1` and `2` the returned numbers stay away from the claimed limit by a fixed amount for all small steps. C108 for the double well, the part that holds: the numbers converge at the same rate to the energy of the prior plus the continuous-time energy minus the integral of `4 E[x⁶] / sigma`. Missing: without the last term the claim fails, see `C108_double_well_violated`. C108 for Lorenz-63, the part that holds (noise and observation noise without correlations): the numbers that `free_energy` returns on finer and finer grids converge, with an error of at most a constant times `dt`, to the energy of the prior plus the continuous-time energy plus a further term: the code takes the variances for observation number `j` at the grid point `j`, and on fine grids these are the variances at the start. Missing: without that term the claim fails, see `C108_lorenz63_violated`."
  },
  {
   "property": "C109",
   "status": "proved",
   "theorems": [
    "VGPA.C109_ornstein_uhlenbeck",
    "VGPA.C109_double_well"
   ],
   "note": "C109 for the Ornstein-Uhlenbeck process: fix a continuous-time problem, with observations before the end of the window. The continuous-time free energy has functional derivatives `gA`, `gB`, and on grids with small steps the two blocks that `gradient` returns, divided by the step, differ from them at the grid points by at most a constant times the step. C109 for the double well: here `gradient` converges to the functional derivative of the continuous-time free energy although `free_energy` itself does not converge to that energy (`C108_double_well_violated`)."
  },
  {
   "property": "C110",
   "status": "partial",
   "theorems": [
    "VGPA.C110_ornstein_uhlenbeck_partial",
    "VGPA.C110_violated"
   ],
   "note": "C110 fails when the initial variance exceeds one: take the process itself as the approximation (`a = θ`, `b = 0`, the initial law is the prior) and observations that equal the mean, with a noise variance such that the sum of the variances at the observation times is below `R log S(0)`. Then for all small steps the number returned is below the negative logarithm of the evidence by a fixed amount. C110, the part that holds: fix a continuous-time problem with an Ornstein-Uhlenbeck process, a Gaussian approximation of its posterior, given by Lipschitz continuous parameters `a`, `b` and the solutions `m`, `S` of the moment equations, and the observations `y` at increasing times `τ`. For every variational object that holds the problem on a grid with a small step (any of the four integrators), the number that `free_energy` returns at the grid values of `a`, `b`, plus half the logarithm of the initial variance, is at least the negative logarithm of the evidence up to a constant times the step. So the number itself is such a bound when the initial variance is at most one. Missing: initial variances above one, where the claim fails, see `C110_violated`."
  },
  {
   "property": "C111",
   "status": "partial",
   "theorems": [
    "VGPA.C111_energy_partial",
    "VGPA.C111_violated"
   ],
   "note": "C111 fails in every dimension of at least four, for every process with positive noise, every positive definite covariance and every linear parameter: for some mean and offset (the same at all times) the energy differs from the one with the drift of each point. C111, the part that holds: `energy` succeeds for positive definite covariances, and its `Esde` is the integration rule applied to the weighted mean, over the points of `ut_approx`, of the weighted squares; the drift values are those of the code's function `l96` for the array of the points. `dsigma` is made from the same means, component by component. Missing: `l96` of an array of several points is not the drift of each point, see `C49_batch_violated`, and so the energy is not the one claimed, see `C111_violated`."
  },
  {
   "property": "C112",
   "status": "partial",
   "theorems": [
    "VGPA.C112_estimates_partial",
    "VGPA.C112_violated"
   ],
   "note": "C112 fails in every dimension of at least four: at mean zero, unit covariance and zero offset there is a linear parameter for which the energy, as a function of a shift of the second component of the mean at all times, does not have the derivative that the returned gradients give. C112, the part that holds: the returned gradients are the weighted means, over the points of `ut_approx`, of `g(x) S⁻¹(x - m)` and of `g(x) (S⁻¹ (x - m) (x - m)ᵀ S⁻¹ - S⁻¹) / 2`, where `g` is the weighted square: the estimates of the derivatives of an expectation under a normal law with respect to its mean and covariance. Missing: they are not the derivatives of the returned energy, see `C112_violated`."
  },
  {
   "property": "C113",
   "status": "proved",
   "theorems": [
    "VGPA.C113_coordinates"
   ],
   "note": "C113: for two problems that differ only in the order, the signs and the origin of the coordinates and in a constant in the objective, started at the same point, the two calls end alike: both raise the same exception, or both return, the same point in the two coordinate systems, with values that differ by the constant. The statistics agree up to the constant in the recorded values, and the states that the functions leave behind are related."
  },
  {
   "property": "C114",
   "status": "proved",
   "theorems": [
    "VGPA.C114_prior"
   ],
   "note": "C114: take two parameter dictionaries that agree in every entry except `Prior`, and a simulation with any history. If `setup` and `run` succeed with both, then every entry of the output except `fx` is the same for both. The two numbers `fx` differ by a constant `k`, and so do the free energies of the two problems at every parameter vector: both raise the same exception, or the values differ by `k`."
  },
  {
   "property": "C115",
   "status": "proved",
   "theorems": [
    "VGPA.C115_converges_1D",
    "VGPA.C115_converges_nD"
   ],
   "note": "C115 in one dimension. The functions and the grid are as in C106, and the sweep runs in rounded arithmetic with unit roundoff `u`. For small `dt` and `u / dt`, all four methods return means and variances that differ from the solutions of the equations by at most a constant times `dt + u / dt`. C115 in `d` dimensions, entry by entry."
  },
  {
   "property": "C116",
   "status": "proved",
   "theorems": [
    "VGPA.C116_converges_1D",
    "VGPA.C116_converges_nD"
   ],
   "note": "C116 in one dimension: the backward sweep of C107 in rounded arithmetic. C116 in `d` dimensions, entry by entry."
  },
  {
   "property": "C117",
   "status": "partial",
   "theorems": [
    "VGPA.C117_reuse_partial",
    "VGPA.C117_violated"
   ],
   "note": "C117 fails for data given by the caller. Take two valid one dimensional configurations whose noise variances of the observations may differ. On a new simulation, `setup` with data is followed by a `run()` that raises. On a simulation that was set up with the first configuration before, the same call is followed by a `run()` that succeeds, with the noise variance of the first configuration in place of that of the second. C117: take a simulation with any history, and a new one. `setup(params)` without data has the same outcome on both (given the same randomness). If it succeeds, `run()` has the same outcome on both, and if that succeeds too, the outputs are the same under every name. So nothing of earlier calls, successful or not, gets into the results. Missing: `setup` with data given by the caller, see `C117_violated`."
  },
  {
   "property": "C118",
   "status": "partial",
   "theorems": [
    "VGPA.C118_failed_setup_partial",
    "VGPA.C118_violated"
   ],
   "note": "C118 fails: a `setup` that raises leaves its traces. Set up a simulation with the shipped double well configuration. A second call of `setup`, which differs in an unknown model name and in the mean of the prior, raises `ValueError`. The `run()` that follows goes through, and for some prior mean in that rejected call reports another free energy than the `run()` without the rejected call. C118, as far as it holds: when the parameters have no valid model name, `setup` raises, and the process with its path, the observations with their noise, the initial moments and the output are what they were. Missing: the other entries, see `C118_violated`."
  },
  {
   "property": "C119",
   "status": "proved",
   "theorems": [
    "VGPA.C119_lorenz96_defined"
   ],
   "note": "C119. Let the process noise and the initial covariance be positive definite. For every length `T` of the window and every bound `α` there is a step size below which `free_energy` and `gradient` of a Lorenz-96 object return values, for all observations, all integrators and all parameter vectors whose linear part (the first `n d²` entries) is bounded by `α`; the offsets may be anything."
  },
  {
   "property": "C120",
   "status": "proved",
   "theorems": [
    "VGPA.C120_arg_out",
    "VGPA.C120_run"
   ],
   "note": "C120: after a successful `free_energy(x)` the dictionary `arg_out` shows the intermediate results of the evaluation at `x` under their names. C120: after a successful `run()` the output shows, under their names, the intermediate results of one evaluation of the free energy of the object that `run` built: at the stored parameters `at`, `bt`, or, when the optimizer used all its iterations, at some vector (see C85)."
  },
  {
   "property": "C121",
   "status": "partial",
   "theorems": [
    "VGPA.C121_ornstein_uhlenbeck",
    "VGPA.C121_double_well",
    "VGPA.C121_lorenz63_partial",
    "VGPA.C121_lorenz96_partial",
    "VGPA.C121_violated"
   ],
   "note": "C121 fails: there is a valid Lorenz-63 configuration such that, if the generator yields independent standard normal numbers, the increments of the path that `setup(params)` stores do not have the covariance `dt sys`, at any time. C121, Lorenz-63, what holds: for every valid configuration without a seed, whatever the simulation did before: if the generator yields independent standard normal numbers from the state that the operating system provides, the path that `setup(params)` stores is an Euler-Maruyama path of the configured process with independent normal increments, the observations have independent normal errors with the configured variances, and the initial mean has independent normal errors with standard deviation 0.1. The increments have the covariance `U Uᵀ`, where `U` is the upper triangular factor with `Uᵀ U = dt sys`. Missing: that this is `dt sys`; it is, if and only if `sys` is diagonal, see `C121_violated`. C121, Lorenz-96, what holds: for every valid configuration without a seed, whatever the simulation did before: if the generator yields independent standard normal numbers from the state that the operating system provides, the path that `setup(params)` stores is an Euler-Maruyama path of the configured process with independent normal increments, the observations have independent normal errors with the configured variances, and the initial mean has independent normal errors with standard deviation 0.1. The increments have the covariance `U Uᵀ`, where `U` is the upper triangular factor with `Uᵀ U = dt sys`. Missing: that this is `dt sys`; it is, if and only if `sys` is diagonal, see `C121_violated`."
  },
  {
   "property": "C122",
   "status": "partial",
   "theorems": [
    "VGPA.C122_refines",
    "VGPA.C122_other_files",
    "VGPA.C122_own_file_partial",
    "VGPA.C122_returned",
    "VGPA.C122_again",
    "VGPA.C122_violated"
   ],
   "note": "C122, the part that fails: `save()` does not replace the old results by the new ones in one step. For every simulation with results there is a time at which a kill leaves a file that cannot be read, whatever it held before; and when the disk fails at the `n`-th of the results, `save()` raises, the old contents are gone and the file can be read without any sign that only the first `n` results are in it. C122, what holds for the file itself: at any time during a `save()`, and after it has been killed or has failed, the file is as it was before, is not readable, or holds the first `n` entries of the output. Missing: that it holds everything or is as before, see `C122_violated`."
  },
  {
   "property": "C123",
   "status": "partial",
   "theorems": [
    "VGPA.C123_integrators",
    "VGPA.C123_free_energy",
    "VGPA.C123_gradient",
    "VGPA.C123_session",
    "VGPA.C123_kept",
    "VGPA.C123_initial_mean",
    "VGPA.C123_placed",
    "VGPA.C123_observe",
    "VGPA.C123_prior_violated",
    "VGPA.C123_observations_violated",
    "VGPA.C123_output_violated"
   ],
   "note": "C123: in more than one dimension `setup` overwrites the array that the caller has in the parameters as `tau0`: everything off the diagonal becomes zero. Nothing else changes. C123: the object does not copy the observations. When the caller overwrites the array they were given in, `free_energy` at the same parameters returns another number, although nothing was assigned to the object. C123: the arrays in the output dictionary are the object's own. Writing into the stored mean changes what `gradient(x, eval_fun=False)` returns afterwards at the same parameters."
  },
  {
   "property": "C124",
   "status": "partial",
   "theorems": [
    "VGPA.C124_setup_iff",
    "VGPA.C124_rejects_violated",
    "VGPA.C124_accepts_violated"
   ],
   "note": "C124: two kinds of sensible dictionaries that `setup` never accepts: a Lorenz system whose system noise is a single number, and a Lorenz system of which one component is observed at more than one time. C124: `setup` accepts meaningless configurations: an integrator that does not exist, negative observation and prior variances."
  },
  {
   "property": "C125",
   "status": "partial",
   "theorems": [
    "VGPA.C125_progress_partial",
    "VGPA.C125_progress_violated"
   ],
   "note": "C125 does not hold: on the same configuration, `run()` returns the parameters that it started from, although the gradient there is not zero. C125, as far as it holds: if the gradient at the start is not numerically zero, no step of at most `1e-50` times the negative gradient increases the objective, the measured curvature at the start is not below `-1e50` (relative to the squared gradient), and at least 101 iterations are allowed, then the optimizer takes a step: its result is at least as good as a point on the line of steepest descent from the start, which is at least as good as the start (equality is possible if a longer step leads to an equal value). Missing: gradient functions whose negative is not a descent direction, such as the one of `run()`, see `C125_progress_violated`."
  },
  {
   "property": "C126",
   "status": "proved",
   "theorems": [
    "VGPA.C126_settings",
    "VGPA.C126_nothing_else",
    "VGPA.C126_zero_iff",
    "VGPA.C126_manual",
    "VGPA.C126_help"
   ],
   "note": "C126: if the command line consists of settings of the two options, in any order, with names that may be cut short, and values that follow as the next word or after `=`, then the program does what `main` does with the last value of each option. C126: on every other command line the program reads and writes no file and exits: with status 1 if there are no arguments, with status 0 only if a word asks for help, and with status 2 otherwise."
  },
  {
   "property": "C127",
   "status": "proved",
   "theorems": [
    "VGPA.C127_free_energy_1d",
    "VGPA.C127_estimate_1d",
    "VGPA.C127_free_energy_63",
    "VGPA.C127_estimate_63",
    "VGPA.C127_start_spline"
   ],
   "note": "C127 for the double well and the Ornstein-Uhlenbeck process: at parameters with reflected offsets, the reflected problem has the same free energy, or raises the same exception; the gradient is the same in the linear parameters and of opposite sign in the offsets; and the objects left behind are again reflected. C127 for a whole estimation with the double well or the Ornstein-Uhlenbeck process: if the interpolation of the reflected data is the reflected interpolation, the reflected problem starts at the reflected parameters, and from reflected starting points the optimizer returns reflected parameters with the same free energy, and leaves reflected moments behind. Exceptions are the same, too."
  },
  {
   "property": "C128",
   "status": "partial",
   "theorems": [
    "VGPA.C128_drift_partial",
    "VGPA.C128_energy_violated",
    "VGPA.C128_integrators_partial",
    "VGPA.C128_likelihood_partial"
   ],
   "note": "C128 fails in every dimension of at least four, for every process with equal and independent noise in all components, already for independent components of unit variance and no linear part: for some mean and offset (the same at all times) the energy of the renumbered problem is a different number. C128, the part that holds: the drift, the mean drift and the mean Jacobian matrix of the renumbered state are the renumbered ones. Missing: the energy and what is computed from it, see `C128_energy_violated`. C128, the part that holds: the integrators renumber their results."
  },
  {
   "property": "C129",
   "status": "partial",
   "theorems": [
    "VGPA.C129_ornstein_uhlenbeck_partial",
    "VGPA.C129_violated",
    "VGPA.C129_double_well_violated",
    "VGPA.C129_lorenz63_partial",
    "VGPA.C129_lorenz96"
   ],
   "note": "C129 fails: for every double well or Ornstein-Uhlenbeck problem on at least three grid points and the integrators Euler, Heun and RK4 there are parameters at which `free_energy` returns an arbitrarily small number. The integrator returns a negative variance there. C129 fails for the double well process also where all variances are positive: with the Euler integrator, for every problem on at least two grid points. (The energy of this process is not an expected square, see C42.) C129, the part that holds, for the Ornstein-Uhlenbeck process: where the variances are not negative, the free energy is at least the prior term plus `log(2 pi R) / 2` for every observation. Missing: parameters at which the integrator returns negative variances (`C129_violated`). C129, the part that holds, for Lorenz-63: if the stored covariances are positive semidefinite, the free energy is at least the prior term plus `log det(2 pi R) / 2` for every observation. Missing: other covariances, which the integrators do return."
  },
  {
   "property": "C130",
   "status": "partial",
   "theorems": [
    "VGPA.C130_likelihood_1d_partial",
    "VGPA.C130_likelihood_nd_partial",
    "VGPA.C130_gradient_1d_partial",
    "VGPA.C130_gradient_nd_partial",
    "VGPA.C130_free_energy_violated",
    "VGPA.C130_initialization_1d_violated",
    "VGPA.C130_initialization_nd_violated"
   ],
   "note": "C130 is violated by the free energy: for every Ornstein-Uhlenbeck object whose observations are given in increasing order, and every other order of the same observations, the free energy comes out larger, at every parameter vector with positive variances and no coefficient `A` equal to `theta`. C130 is violated by the initialization in one dimension: with the observations in increasing order, all of them inside the window, it returns a start; with the same observations in any other order it raises `ValueError`. C130 is violated by the initialization in several dimensions. C130, the part that holds: the observation energy in one dimension does not depend on the order of the observations. C130, the part that holds: nor does it in several dimensions."
  },
  {
   "property": "C131",
   "status": "proved",
   "theorems": [
    "VGPA.C131_values",
    "VGPA.C131_start_kept",
    "VGPA.C131_variational"
   ],
   "note": "C131, any functions that keep to their own arrays. The call of the optimizer changes no array that existed, in particular not the start; it leaves the statistics and the state of the functions that the same call leaves when all arrays are values; it raises what that call raises, or returns what that call returns, in a new array. C131, functions that may do anything. As long as they leave the array at `l` alone when they are not called with it, a call of the optimizer leaves it alone too, and does not return it: the functions are never called with an array of the caller, also not when they overwrite their argument. For the start, `l` is `x0.loc`."
  },
  {
   "property": "C132",
   "status": "partial",
   "theorems": [
    "VGPA.C132_reused_buffer_violated",
    "VGPA.C132_no_reuse_partial"
   ],
   "note": "C132, the gradient function with a buffer. Each of its calls returns an array with the right contents, `2x`. But the optimizer does not copy the first gradient (`grad_new = self.df(x, *args)`) before it asks for the second one: it then finds no curvature, takes the step of a linear function, and after one iteration has gone from `c` to `-c`, where the objective is what it was, instead of to `c / 3`. C132, gradient functions that leave their earlier results alone. Two programs on memory that compute the same functions and change no array that exists give the same result, wherever they put their arrays; in particular it makes no difference whether a gradient is returned in a new array, in an array made long ago or, as by `lambda x: x`, in the argument itself."
  },
  {
   "property": "C133",
   "status": "partial",
   "theorems": [
    "VGPA.C133_rejected_1d_partial",
    "VGPA.C133_rejected_nd_partial",
    "VGPA.C133_one_value_1d_violated",
    "VGPA.C133_one_value_nd_violated",
    "VGPA.C133_one_time_1d_violated",
    "VGPA.C133_one_time_nd_violated"
   ],
   "note": "C133 fails in one dimension for a single value: it is taken as observed at all times, in the energy and in the gradients. C133 fails in `d` dimensions for a single value: it is taken as observed at all times, but the normalising constant of the density is counted only once. C133 fails in one dimension for a single time and two or more values: the energy is that of all values observed at this time, but the normalising constant of the density is counted only once; the gradients raise `ValueError`. C133 fails in `d` dimensions for a single time and two or more values: only the first value counts, in the energy and in the gradients; the normalising constant is counted once per value. C133, what holds in one dimension: if there are two or more values (or none), two or more times (or none), and not equally many of both, then both the energy and its gradients raise `ValueError`. Missing: a single value or a single time, see the theorems below. C133, what holds in `d` dimensions: the same."
  },
  {
   "property": "C134",
   "status": "proved",
   "theorems": [
    "VGPA.C134_origin_of_time",
    "VGPA.C134_origin_of_time_spline"
   ],
   "note": "C134: two parameter files of which one has a time window that starts and ends later by `c`, with the same step, give the same `setup` and the same `run`: the same outcome, the same output. The process has the same path and draws the same observations. C134 with SciPy's spline: a window that is later by `c` gives the same outcome and output of `setup` and `run`."
  },
  {
   "property": "C135",
   "status": "proved",
   "theorems": [
    "VGPA.C135_stays_proper",
    "VGPA.C135_nan_gradient"
   ],
   "note": "C135: in double precision, with any gradient function, if the objective is neither NaN nor plus infinity at the start point, then neither are the values recorded during the call nor the returned one, which is the value at the returned point. C135, the gradient: if the gradient at the start point has an entry that is NaN, the call ends at the start point, with the value that the objective has there."
  },
  {
   "property": "C136",
   "status": "partial",
   "theorems": [
    "VGPA.C136_nan_result_partial",
    "VGPA.C136_violated"
   ],
   "note": "C136 does not hold: whenever the objective is NaN at the start point, the call returns normally, with the start point and NaN. C136, the part that holds: the returned value is NaN only if the value at the start point is; the start point is then what is returned. Missing: that the call raises in that case. It does not, see `C136_violated`."
  },
  {
   "property": "C137",
   "status": "partial",
   "theorems": [
    "VGPA.C137_descent_floats_partial",
    "VGPA.C137_violated"
   ],
   "note": "C137 does not hold as it stands: there is an objective, with gradient values, for which one iteration of the optimizer takes a step that raises the value, and the call returns a value greater than the value at the start point. No product of step length and slope overflows. The step is accepted because the comparison ratio, `-2^-1099`, is rounded to minus zero, and `-0.0 >= 0.0` is true. C137, the part that holds: in double precision, for every objective and every gradient function, no iteration records a value that is more than `2⁻⁵²` above the one before, and the returned value is at most `max_it · 2⁻⁵²` above the value at the start point, as long as no product of a step length and a slope overflows. Missing: that the value does not increase at all, which is not so: `C137_violated`."
  },
  {
   "property": "C138",
   "status": "partial",
   "theorems": [
    "VGPA.C138_checks_partial",
    "VGPA.C138_violated"
   ],
   "note": "C138 does not hold: a double well process can be created with the noise NaN or infinity and any drift, and so can an Ornstein-Uhlenbeck process; the stored inverse is then NaN or zero. Both can be assigned later, and both are accepted as a time step. The smallest positive noise has the inverse infinity. C138, the part that holds: a constructor, a setter and a solver accept a value exactly when it is positive, infinite or NaN; what they reject leaves the object as it was; and after the constructor and any sequence of assignments, accepted or not, the noise of a double well or an Ornstein-Uhlenbeck process is of that kind, so is the drift of the latter, and the stored inverse is the rounded quotient of one and the noise. Missing: that NaN and infinity are rejected. They are not, see `C138_violated`."
  },
  {
   "property": "C139",
   "status": "partial",
   "theorems": [
    "VGPA.C139_error_partial",
    "VGPA.C139_violated"
   ],
   "note": "C139 does not hold: where an argument is 2^35 or more in size, its entry of the result is zero, whatever the function is. For the function that returns its argument, whose derivative is one, the result at 2^35 is zero. C139, the part that holds: for an argument of size at most 10^9, if the function that is evaluated stays within `eps` of a smooth exact function, entry `i` of the result stays within `M/10^12 + 2*10^6*eps + L*(|x_i|+1)/10^9` (and less than the smallest normal number) of the exact derivative; here `L` and `M` bound the first and third derivative along the coordinate line. Missing: arguments of any size, see `C139_violated`."
  },
  {
   "property": "C140",
   "status": "partial",
   "theorems": [
    "VGPA.C140_points_partial",
    "VGPA.C140_violated",
    "VGPA.C140_dyadic_partial"
   ],
   "note": "C140 does not hold: the window from 0 to 20 with the step 0.01 (the default) has 2002 points in double precision, not 2001, and ends after 20.009. C140, the part that holds: if `tf` lies `N` steps after `t0`, as decimal numbers, the window in double precision has `N + 1` or `N + 2` points; point `i` differs from `t0 + i dt` by at most `(i + 1)(|t0| + dt)/2^49`, the first is `t0`; `time_step` differs from `dt` by at most `(|t0| + dt)/2^49`, and is `dt` if `t0` is zero. Missing: there are `N + 1` points (see `C140_violated` and `C140_dyadic_partial`), and `time_step` is `dt`, for windows that start elsewhere. C140 for binary fractions: if `t0`, `tf` and `dt` are multiples of a power of two, small enough for 53 bits, the window is exact: `N + 1` points, the points are `t0 + i dt`, and `time_step` is `dt`. Missing: decimal fractions."
  },
  {
   "property": "C141",
   "status": "partial",
   "theorems": [
    "VGPA.C141_partial",
    "VGPA.C141_violated"
   ],
   "note": "C141 does not hold. With the step 0.1 a density of 10 is accepted for the window from 0 to 1 and rejected for the window from 1 to 2, because the step that is computed from the window is larger there. With 30 points and 21 observations, the index 14 is used in place of 15: the step between the indices is rounded, and so is its multiple, to just below 15. For the window from 0 to 0.29 with step 0.01 and density 100 there are 28 observations, not 29. C141, the part that holds: for a window that was made from decimal numbers, of moderate size, a density is accepted if one more would still be less than one observation per step, and rejected if it is larger than one per step, with a margin of 1/256 in both cases. If it is accepted, the number of observations differs from the density times the length of the window by at most 1.01; it is the number of indices; the indices lie in the window, after its first point, in increasing order, and index `i` is the integer part of `(i + 1) n / (M + 1)`, or one less if this quotient is an integer but `n / (M + 1)` is none. Missing: without the exceptions, see `C141_violated`."
  },
  {
   "property": "C142",
   "status": "partial",
   "theorems": [
    "VGPA.C142_free_energy_partial",
    "VGPA.C142_best_partial",
    "VGPA.C142_violated"
   ],
   "note": "C142 fails for the second-order Runge-Kutta method: an Ornstein-Uhlenbeck process with one observation, the same problem with the state in half the unit, and parameters at which the second free energy is larger by 4.5 (the constant of `C142_free_energy_partial` is zero here). The predictor of the variance takes the variance in the place of the linear parameter, a rate. C142: the same problem in other units has the same free energy, up to a constant that depends on the units and on the number of observations only, or raises the same exception; its gradient is the gradient in the other units; what is stored is what was stored, in the other units. Missing: the second-order Runge-Kutta method with units that do not satisfy `r = c²`, see `C142_violated`. C142: the best parameters in other units are the best parameters, in the other units. Missing: as for the free energy."
  },
  {
   "property": "C143",
   "status": "proved",
   "theorems": [
    "VGPA.C143_finite",
    "VGPA.C143_nan",
    "VGPA.C143_optimizer",
    "VGPA.C143_nan_data",
    "VGPA.C143_same_program_ou",
    "VGPA.C143_same_program_dw"
   ],
   "note": "When `free_energy` returns a finite number, then everything that it was computed from is finite (the parameters, the observations and their noise, the prior, the initial moments, the drift and the noise of the process, the time steps), and so are all means and variances that it stores. When one of these numbers is NaN, `free_energy` returns NaN."
  },
  {
   "property": "C144",
   "status": "proved",
   "theorems": [
    "VGPA.C144_spline",
    "VGPA.C144_parabola",
    "VGPA.C144_solvable",
    "VGPA.C144_cubic_data",
    "VGPA.C144_affine",
    "VGPA.C144_interpolates",
    "VGPA.C144_initialization_1d",
    "VGPA.C144_initialization_nd",
    "VGPA.C144_time_unit"
   ],
   "note": "C144: with at least four points SciPy's curve is a not-a-knot cubic spline through them, and it is the only one. C144 with three points, which is one observation inside the window: the curve is the parabola through them."
  },
  {
   "property": "C145",
   "status": "partial",
   "theorems": [
    "VGPA.C145_partial",
    "VGPA.C145_violated"
   ],
   "note": "C145 fails: with the observations `0` and `1` at the times `1` and `2` of the window `0, 1/2, 1, ..., 3`, the offset at the time `1/2` is `-1/4`, and at the time `5/2` it is `5/4`. C145, the part that holds: if all observations are equal, in particular if there is only one, the offsets that `initialization` returns are equal to them. Missing: with different observations the offsets leave their range, see `C145_violated`."
  },
  {
   "property": "C146",
   "status": "proved",
   "theorems": [
    "VGPA.C146_free_energy",
    "VGPA.C146_moments",
    "VGPA.C146_ornstein_uhlenbeck",
    "VGPA.C146_double_well"
   ],
   "note": "C146: with the schemes of Euler, Heun and Runge-Kutta 4, if the free energy computed in double precision is finite, it differs from the free energy computed with real numbers by at most `(217 n + m + 30)/2^52` times the size of what is added up, for `n` points and `m` observations. Here the inputs are doubles and their values are the real inputs; the library may sum in any order, and its powers and logarithms may be wrong by one unit in the last place. C146, the stored moments: means and variances that are finite are exact up to `36 n/2^52` times their sizes."
  },
  {
   "property": "C147",
   "status": "partial",
   "theorems": [
    "VGPA.C147_start_1d_partial",
    "VGPA.C147_time_unit_partial",
    "VGPA.C147_violated_1d",
    "VGPA.C147_violated_nd",
    "VGPA.C147_violated"
   ],
   "note": "C147 fails: a double well with two observations, and the same problem in any other units. C147 in one dimension, what the program does: in other units the linear parameters of the start are multiplied by `c² r`, and the offsets by `c`, or the same exception is raised. The parameters in the other units would be multiplied by `r` and `c r`, see `C147_violated_1d`. C147 in several dimensions, the part that holds: in another unit of time the start is the same (all parameters are rates and are multiplied by `r`), or the same exception is raised. Missing: another unit of the state."
  },
  {
   "property": "C148",
   "status": "proved",
   "theorems": [
    "VGPA.C148_same_gradient_ou",
    "VGPA.C148_same_gradient_dw"
   ],
   "note": "C148: with real numbers in place of doubles, the gradient of `Model/IeeeGrad` is the gradient of all other theorems: whenever `gradient(x)` of the Ornstein-Uhlenbeck process returns, they agree in the derivatives and in the stored multipliers. The same for the double well."
  },
  {
   "property": "C149",
   "status": "proved",
   "theorems": [
    "VGPA.C149_gradient",
    "VGPA.C149_ornstein_uhlenbeck",
    "VGPA.C149_double_well"
   ],
   "note": "C149: if `gradient` in double precision returns, so it does with real numbers, and every finite entry is exact up to `(253 n + 34)/2^52` times the size of what is added up to get it; the stored multipliers are exact up to `(217 n + 24)/2^52` times their sizes. The forward integrator is Euler, Heun or Runge-Kutta 4, the backward integrator any of the four. C149 for the objects of the model, Ornstein-Uhlenbeck: `g'` is what `gradient` returns with exact arithmetic, and `c` what it stores."
  },
  {
   "property": "C150",
   "status": "partial",
   "theorems": [
    "VGPA.C150_finite_partial",
    "VGPA.C150_nan_partial",
    "VGPA.C150_violated"
   ],
   "note": "An observation of the last grid point that is NaN: the free energy is NaN, but with every backward integrator all derivatives are finite (`solve_bwd` never reads the derivative with respect to the last mean). When all derivatives that `gradient` returns are finite, then so are the parameters, the drift and the noise of the process, the time steps, the initial moments, all stored multipliers, and every observation, the last grid point excepted. When one of these numbers is NaN, or the noise of an observation before the last grid point, then one of the derivatives is NaN."
  },
  {
   "property": "C151",
   "status": "proved",
   "theorems": [
    "VGPA.C151_exact_descent",
    "VGPA.C151_ornstein_uhlenbeck",
    "VGPA.C151_double_well"
   ],
   "note": "C151: the optimizer runs in double precision on the free energy in double precision, with any gradient function. If the value at the start and the reported value are finite, then the free energy with exact arithmetic at the reported parameters `y` is not more than rounding errors above the one at the start `y0`: `max_it / 2^52` for the decisions, and `(217 n + m + 30) / 2^52` times the sizes for the two values. The parameters reported are finite. C151 for the objects of the model, Ornstein-Uhlenbeck: `F0` and `F` are what `free_energy` returns with exact arithmetic."
  },
  {
   "property": "C152",
   "status": "partial",
   "theorems": [
    "VGPA.C152_finite_diff",
    "VGPA.C152_check_partial",
    "VGPA.C152_variational",
    "VGPA.C152_violated"
   ],
   "note": "C152 does not hold for functions that keep the array that the gradient function returns. For `f(x) = 100 x²` the values and the gradients of `storeOracle` are exact at every call, and the same functions on values pass the check with the default tolerance; but the array with the gradient is overwritten while `finite_diff` calls the objective, and the check prints \"FAILED\", at every `x`. C152, `check_gradient_function`. The two functions may overwrite the arrays they get, keep them and overwrite them later, as long as they do not keep the array that the gradient function returns. The check changes no array that existed, except those that they keep and change themselves, in particular not `x`; it prints what it prints when arrays are values. What is missing: functions that keep that array, see `C152_violated`."
  },
  {
   "property": "C153",
   "status": "proved",
   "theorems": [
    "VGPA.C153_one_dimension",
    "VGPA.C153_more_dimensions",
    "VGPA.C153_run_one_dimension",
    "VGPA.C153_run_more_dimensions"
   ],
   "note": "C153, `initialization()` in one dimension: it changes no array that existed, and raises or returns what it should, in a new array. C153, `initialization()` in `d` dimensions."
  },
  {
   "property": "C154",
   "status": "proved",
   "theorems": [
    "VGPA.C154_no_effect",
    "VGPA.C154_lines"
   ],
   "note": "C154, printing changes nothing: with and without `display`, a call of the optimizer has the result of `Scg.call`, and leaves the object and the functions in the same state. C154, what is printed."
  },
  {
   "property": "C155",
   "status": "partial",
   "theorems": [
    "VGPA.C155_unchanged",
    "VGPA.C155_partial",
    "VGPA.C155_violated",
    "VGPA.C155_silent_violated",
    "VGPA.C155_every_process_violated"
   ],
   "note": "C155 does not hold: for every valid one dimensional configuration, `setup` succeeds, and `run` does when it is called at once; if the caller first sets the step size in the dictionary `params[\"Time-window\"]` to a number that is not positive, `run` of the simulation that has been set up raises a `ValueError`, and its output stays what it was. C155 does not hold, without an error: for every valid one dimensional configuration, if the caller sets the step size in the dictionary `params[\"Time-window\"]` to another positive number `d` after `setup`, `run` succeeds, and the moments that belong to the reported `at` and `bt` (and that are stored, if the optimizer stops by itself) are those of an integrator with the step `d` on the grid with the step of `setup`. With Euler's method they are not those of the parameters that `setup` was given, unless mean and variance stay constant. C155 does not hold for any of the four processes: whatever the parameters, the data and the history, if `setup` succeeds and the caller then sets the step size in the dictionary that was `params[\"Time-window\"]` to a number that is not positive, `run` raises a `ValueError` and writes no output. C155, the part that holds: after a successful `setup`, whatever the simulation did before, `run` reports and computes what it would have with the parameters at the time of `setup`, if the caller has left alone the step size and the operator inside the dictionaries they passed, and the objects for the method and the prior. Missing: the caller may change these too, see `C155_violated`."
  },
  {
   "property": "C156",
   "status": "proved",
   "theorems": [
    "VGPA.C156_run_again",
    "VGPA.C156_save_again"
   ],
   "note": "C156: after any history of calls on a simulation, and after any further calls of `run()` and `save()`, a call of `run()` has the same outcome as it would have had before those, and when it succeeds, every entry of the output is the same. C156, the file: if that run succeeds and the file can be opened, saving after it writes a file that loads, with the same entries as the file saved after the first run."
  },
  {
   "property": "C157",
   "status": "partial",
   "theorems": [
    "VGPA.C157_prior_partial",
    "VGPA.C157_prior_violated",
    "VGPA.C157_prior_gradients",
    "VGPA.C157_observation_gradients_partial",
    "VGPA.C157_multipliers_partial",
    "VGPA.C157_observation_partial",
    "VGPA.C157_observation_violated",
    "VGPA.C157_operator_violated"
   ],
   "note": "C157 fails for the prior term: for every variance of the start other than one the two return different numbers, whatever the mean and the prior. C157 fails for the observation term: one observation at the second grid point, and variances that differ at the first two. C157 fails for the gradients when the operator is not the identity: one grid point, observed with the operator `H`. The derivative with respect to the variance that the code on 1x1 arrays returns is `H²` times the one on numbers, and the one with respect to the mean multiplies `H` in another place. C157, the prior term, as far as it holds: on 1x1 arrays the code returns half the logarithm of the variance more than on numbers, so the two agree for the variance one. C157, the gradients of the observation term with the operator one agree at all grid points."
  },
  {
   "property": "C158",
   "status": "proved",
   "theorems": [
    "VGPA.C158_as_new",
    "VGPA.C158_start_one",
    "VGPA.C158_start_many",
    "VGPA.C158_until_evaluated"
   ],
   "note": "C158. A process has made a trajectory, and a `VarGP` object has been built on it. Then any number of calls follow, in any order: assignments to the noise and the drift parameters of the process, accepted or rejected, new trajectories over the same times, and evaluations. Building a new `VarGP` object on the process as it is now, from the same other arguments, succeeds, and for all parameters `x` the old object returns the same free energy and the same gradient, or raises the same exception. C158, the start of the optimisation: in one dimension."
  }
 ]
}