{"id": "C01", "title": "Gaussian moments are the true moments", "statement": "GaussianMoments(m, v)(order) returns, entry by entry, the exact moment E[x^order] of a normal variable with mean m[i] and variance v[i], for every order 0..8, and raises ValueError for every other order.", "quantifier": "all array lengths, all means, all variances >= 0, all integer orders", "why_tests_cant": "moments are polynomials in real arguments; a test samples a few (m, v) and cannot separate two polynomials or relate them to the integral of the normal density", "anchors": ["src/var_bayes/gaussian_moments.py: GaussianMoments.__init__, GaussianMoments.__call__"]}
{"id": "C02", "title": "Moment derivatives are the true derivatives", "statement": "GaussianMoments(m, v).dm(order) and .ds(order) return, entry by entry, the partial derivatives of E[x^order] with respect to the mean and to the variance, for every order 1..8, and raise ValueError for every other order.", "quantifier": "all array lengths, all means, all variances >= 0, all integer orders", "why_tests_cant": "a derivative is a limit over all increments; finite differences in a test only bound it at sampled points", "anchors": ["src/var_bayes/gaussian_moments.py: GaussianMoments.dm, GaussianMoments.ds"]}
{"id": "C03", "title": "Mismatched moment arrays are rejected with RuntimeError", "statement": "Constructing GaussianMoments from arrays whose shapes differ raises RuntimeError, and never yields an object; arrays of equal shape are always accepted.", "quantifier": "all pairs of array lengths", "why_tests_cant": "ranges over every pair of lengths; the existing tests never enter this branch", "anchors": ["src/var_bayes/gaussian_moments.py: GaussianMoments.__init__"]}
{"id": "C04", "title": "Piecewise integration equals plain integration", "statement": "my_trapz(fx, dx, obs_t) returns the same value as my_trapz(fx, dx) for every non-decreasing list of observation indices, whether it is empty, has repeats, contains the first or last index or runs past the end, and for scalar-, vector- and matrix-valued integrands.", "quantifier": "all integrand lengths and values, all steps, all non-decreasing index lists", "why_tests_cant": "the split points are an arbitrary list; tests try one list of seven indices", "anchors": ["src/numerics/utilities.py: my_trapz"]}
{"id": "C05", "title": "Trapezoidal integral is linear, monotone and exact on affine data", "statement": "my_trapz is linear in fx, returns a non-negative value for non-negative fx and dx >= 0, and returns exactly dx*(n-1)*(first+last)/2 when fx is sampled from an affine function.", "quantifier": "all lengths, values, steps and non-decreasing index lists", "why_tests_cant": "algebraic laws over all arrays", "anchors": ["src/numerics/utilities.py: my_trapz"]}
{"id": "C06", "title": "Finite differences are exact on quadratics and leave no residue", "statement": "finite_diff(fun, x) calls fun exactly at x + h e_i and x - h e_i (h = 1e-6) for each coordinate i, so entry i does not depend on the other coordinates' perturbations, and it equals the exact partial derivative whenever fun restricted to each coordinate line is a polynomial of degree at most two.", "quantifier": "all dimensions, all points, all functions (exactness: all quadratics)", "why_tests_cant": "ranges over functions; the shared perturbation buffer could leak between coordinates in ways a test on two coordinates does not see", "anchors": ["src/numerics/utilities.py: finite_diff"]}
{"id": "C07", "title": "Finite-difference error bound", "statement": "For a function whose restriction to coordinate line i is three times continuously differentiable with third derivative bounded by M near x, entry i of finite_diff(fun, x) differs from the true partial derivative by at most M*h^2/6 with h = 1e-6.", "quantifier": "all dimensions, points and sufficiently smooth functions", "why_tests_cant": "a bound over a function class", "anchors": ["src/numerics/utilities.py: finite_diff", "src/numerics/optim_scg.py: SCG.check_gradient_function"]}
{"id": "C08", "title": "safe_log is a clipped logarithm", "statement": "safe_log(x) equals log(x) for 1e-300 <= x <= 1e300, lies between log(1e-300) and log(1e300) for every real x, and is non-decreasing.", "quantifier": "all real inputs", "why_tests_cant": "ranges over all reals", "anchors": ["src/numerics/utilities.py: safe_log"]}
{"id": "C09", "title": "log_det returns the log-determinant", "statement": "log_det(x) equals log(det(x)) for every symmetric positive definite matrix, log(x) for a positive scalar and the sum of logs for a positive vector; it raises RuntimeError for a non-square matrix and LinAlgError for a symmetric matrix that is not positive definite.", "quantifier": "all sizes, all matrices", "why_tests_cant": "unbounded dimension and all entries", "anchors": ["src/numerics/utilities.py: log_det"]}
{"id": "C10", "title": "chol_inv inverts positive definite matrices", "statement": "For every symmetric positive definite matrix x, chol_inv(x) returns (y, c) with y*x = x*y = identity, y = c'c symmetric, and c lower triangular; for every symmetric matrix that is not positive definite it raises LinAlgError; for a positive scalar it returns (1/x, 1/sqrt(x)).", "quantifier": "all sizes, all symmetric matrices", "why_tests_cant": "unbounded dimension; the existing test only checks that the mean entry of the residual is small from one side", "anchors": ["src/numerics/utilities.py: chol_inv, chol_inv_fast"]}
{"id": "C11", "title": "Cholesky-based routines ignore the upper triangle", "statement": "chol_inv and log_det give the same answer for two matrices that agree on and below the diagonal; in particular for a non-symmetric argument the result is that of the symmetric matrix built from its lower triangle, not of the argument.", "quantifier": "all sizes, all matrices", "why_tests_cant": "a non-interference statement over all entries above the diagonal", "anchors": ["src/numerics/utilities.py: chol_inv, log_det"]}
{"id": "C12", "title": "Unscented transform: weights and sigma points match mean and covariance", "statement": "ut_approx(fun, mean, cov) evaluates fun at 2d+1 points whose weights are positive and sum to one and whose weighted mean and covariance are exactly the given mean and covariance, for every symmetric positive definite cov; hence the returned mean is exact for every affine function, and for every function that is quadratic in the state.", "quantifier": "all dimensions, means, positive definite covariances, all affine/quadratic functions", "why_tests_cant": "unbounded dimension and a class of functions", "anchors": ["src/numerics/utilities.py: ut_approx"]}
{"id": "C13", "title": "Unscented transform still matches the variances when Cholesky fails", "statement": "When cov is not positive definite but has a positive diagonal, ut_approx falls back to the diagonal of cov: the sigma points then reproduce the mean and the diagonal variances of cov.", "quantifier": "all dimensions and all such covariances", "why_tests_cant": "an error branch reached only for special covariances", "anchors": ["src/numerics/utilities.py: ut_approx"]}
{"id": "C14", "title": "Unscented transform covariance output", "statement": "The second value returned by ut_approx is the weighted covariance of the transformed points around the returned mean; in particular it is zero for a constant function and unchanged when a constant is added to the function.", "quantifier": "all dimensions, functions, means and covariances", "why_tests_cant": "an algebraic identity over all functions", "anchors": ["src/numerics/utilities.py: ut_approx"]}
{"id": "C15", "title": "Solver construction accepts exactly the documented arguments", "statement": "FwdOde(dt, method) and BwdOde(dt, method) succeed if and only if dt > 0 and method is, up to letter case, one of Euler, Heun, RK2, RK4; otherwise they raise ValueError. The solver used is the one named.", "quantifier": "all real dt, all (ASCII) method strings", "why_tests_cant": "acceptance must be decided for every string and every step", "anchors": ["src/var_bayes/fwd_ode.py: FwdOde.__init__", "src/var_bayes/bwd_ode.py: BwdOde.__init__", "src/numerics/ode_solver.py: OdeSolver.__init__", "src/numerics/utilities.py: num_integration"]}
{"id": "C16", "title": "Sweep shape contract", "statement": "A forward call returns mean and variance series of exactly the length of the offset series, starting at (m0, s0); a backward call returns multiplier series of exactly the length of the gradient series, ending in zero. A call fails (with IndexError) when the offset series is empty or the linear-parameter series is too short, and never fails on well-shaped input.", "quantifier": "all four methods, all lengths, 1-D and n-D", "why_tests_cant": "ranges over every length combination including the boundary ones", "anchors": ["src/numerics/euler.py: Euler.solve_fwd, Euler.solve_bwd", "src/numerics/heun.py: Heun.solve_fwd, Heun.solve_bwd", "src/numerics/runge_kutta2.py: RungeKutta2.solve_fwd, RungeKutta2.solve_bwd", "src/numerics/runge_kutta4.py: RungeKutta4.solve_fwd, RungeKutta4.solve_bwd"]}
{"id": "C17", "title": "Forward sweep steps are the textbook steps", "statement": "Every entry of the forward mean and variance series is obtained from the previous one by one textbook step of the named method (Euler, Heun, explicit midpoint, classical Runge-Kutta 4) applied to dm/dt = -A m + b and dS/dt = -A S - S A' + Sigma, with the parameters interpolated linearly between grid points.", "quantifier": "all four methods, all lengths, dimensions, parameters and steps", "why_tests_cant": "an identity for every entry of every input; a wrong stage argument can be invisible on symmetric or constant test data", "anchors": ["src/numerics/ode_solver.py: fun_mt, fun_st", "src/numerics/euler.py: Euler.solve_fwd", "src/numerics/heun.py: Heun.solve_fwd", "src/numerics/runge_kutta2.py: RungeKutta2.solve_fwd", "src/numerics/runge_kutta4.py: RungeKutta4.solve_fwd"]}
{"id": "C18", "title": "Backward sweep steps are the textbook steps plus the observation jump", "statement": "Every entry of the backward multiplier series is obtained from the next one by one textbook step of the named method with step -dt applied to d lam/dt = -dE/dm + lam A' (as documented for the auxiliary function) and d psi/dt = -dE/dS + psi A + A' psi, plus the observation jump at the new time.", "quantifier": "all four methods, all lengths, dimensions, parameters and steps", "why_tests_cant": "an identity for every entry of every input", "anchors": ["src/numerics/ode_solver.py: fun_lam, fun_psi", "src/numerics/euler.py: Euler.solve_bwd", "src/numerics/heun.py: Heun.solve_bwd", "src/numerics/runge_kutta2.py: RungeKutta2.solve_bwd", "src/numerics/runge_kutta4.py: RungeKutta4.solve_bwd"]}
{"id": "C19", "title": "Covariances and their multipliers stay symmetric", "statement": "If s0 and Sigma are symmetric, every covariance returned by a forward sweep is symmetric; if the energy and observation gradients with respect to S are symmetric, every psi returned by a backward sweep is symmetric. Holds for all four methods and arbitrary (non-symmetric) linear parameters.", "quantifier": "all methods, lengths, dimensions and parameters", "why_tests_cant": "an invariant along an unbounded recursion", "anchors": ["src/numerics/euler.py: solve_fwd, solve_bwd", "src/numerics/heun.py: solve_fwd, solve_bwd", "src/numerics/runge_kutta2.py: solve_fwd, solve_bwd", "src/numerics/runge_kutta4.py: solve_fwd, solve_bwd"]}
{"id": "C20", "title": "Causality of the sweeps", "statement": "The forward moments at index k depend only on the parameters at indices <= k, and the backward multipliers at index k depend only on the parameters and gradients at indices >= k.", "quantifier": "all methods, lengths, dimensions; all pairs of inputs agreeing on the relevant prefix/suffix", "why_tests_cant": "a two-run (hyper)property over all pairs of inputs", "anchors": ["src/numerics/euler.py: solve_fwd, solve_bwd", "src/numerics/heun.py: solve_fwd, solve_bwd", "src/numerics/runge_kutta2.py: solve_fwd, solve_bwd", "src/numerics/runge_kutta4.py: solve_fwd, solve_bwd"]}
{"id": "C21", "title": "Equilibria are preserved", "statement": "With constant parameters, if b = A m0 then every forward method returns the constant mean m0, and if A S0 + S0 A' = Sigma then every forward method returns the constant covariance S0.", "quantifier": "all methods, lengths, dimensions, steps", "why_tests_cant": "exact invariance for every parameter choice and length", "anchors": ["src/numerics/euler.py: solve_fwd", "src/numerics/heun.py: solve_fwd", "src/numerics/runge_kutta2.py: solve_fwd", "src/numerics/runge_kutta4.py: solve_fwd"]}
{"id": "C22", "title": "The 1-D and n-D code paths agree in dimension one", "statement": "Running a sweep with single_dim=False on 1x1 data returns the same numbers as running it with single_dim=True on the corresponding scalars.", "quantifier": "all methods, both sweeps, all lengths and inputs", "why_tests_cant": "equivalence of two programs on all inputs", "anchors": ["src/numerics/ode_solver.py: fun_mt, fun_st, fun_lam, fun_psi", "src/numerics/euler.py: Euler", "src/numerics/heun.py: Heun", "src/numerics/runge_kutta2.py: RungeKutta2", "src/numerics/runge_kutta4.py: RungeKutta4"]}
{"id": "C23", "title": "Superposition", "statement": "For fixed linear parameters the forward mean is an affine function of (m0, b) and the backward lam and psi are linear functions of their gradient and jump inputs: solving for a sum of inputs gives the sum of the solutions.", "quantifier": "all methods, lengths, dimensions, inputs", "why_tests_cant": "a law relating runs on all pairs of inputs", "anchors": ["src/numerics/euler.py: solve_fwd, solve_bwd", "src/numerics/heun.py: solve_fwd, solve_bwd", "src/numerics/runge_kutta2.py: solve_fwd, solve_bwd", "src/numerics/runge_kutta4.py: solve_fwd, solve_bwd"]}
{"id": "C24", "title": "Constant-coefficient closed form and convergence", "statement": "With constant scalar parameters (a, b) the forward mean at index k is exactly the equilibrium plus R(-a dt)^k times the initial offset, where R is the Taylor polynomial of exp of degree 1 (Euler), 2 (Heun, RK2) or 4 (RK4); hence at a fixed end time the computed mean converges to the exact solution of dm/dt = -a m + b as the number of steps grows.", "quantifier": "all methods, all a, b, m0, end times, all step counts", "why_tests_cant": "a limit statement over unboundedly many steps", "anchors": ["src/numerics/euler.py: solve_fwd", "src/numerics/heun.py: solve_fwd", "src/numerics/runge_kutta2.py: solve_fwd", "src/numerics/runge_kutta4.py: solve_fwd"]}
{"id": "C25", "title": "Variance closed form", "statement": "With constant scalar parameters the forward variance at index k is the equilibrium Sigma/(2a) plus R(-2 a dt)^k times the initial offset, with the same Taylor polynomial R of the named method.", "quantifier": "all methods, all a != 0, Sigma, s0, steps and lengths", "why_tests_cant": "identity over all parameters and lengths", "anchors": ["src/numerics/euler.py: solve_fwd", "src/numerics/heun.py: solve_fwd", "src/numerics/runge_kutta2.py: solve_fwd", "src/numerics/runge_kutta4.py: solve_fwd"]}
{"id": "C26", "title": "Discrete adjoint identity", "statement": "The Euler backward sweep is the exact discrete adjoint of the Euler forward mean sweep: for the mean series m of parameters (A, b) and the multiplier series lam of gradients g and jumps j, sum over t>=1 of (dt*g[t] + j[t-1]).m[t] equals lam[0].m[1] + dt * sum over t>=1 of lam[t].b[t].", "quantifier": "all lengths, dimensions, parameters", "why_tests_cant": "an identity linking two sweeps for all inputs; a transposition error only shows up for non-symmetric A", "anchors": ["src/numerics/ode_solver.py: fun_mt, fun_lam", "src/numerics/euler.py: solve_fwd, solve_bwd"]}
{"id": "C27", "title": "Every observation influences the multipliers", "statement": "Changing the observation gradient at any observed index changes the backward multipliers: no observation, including one at the last time point, is silently dropped.", "quantifier": "all methods, all lengths, all observation indices", "why_tests_cant": "a non-interference question at the boundary index", "anchors": ["src/numerics/euler.py: solve_bwd", "src/numerics/heun.py: solve_bwd", "src/numerics/runge_kutta2.py: solve_bwd", "src/numerics/runge_kutta4.py: solve_bwd"]}
{"id": "C28", "title": "Scalar variances stay positive for small steps", "statement": "In 1-D, for s0 > 0, Sigma > 0 and 0 <= 2*a[k]*dt <= 1 at all grid points, every method returns a strictly positive variance at every index.", "quantifier": "all methods, lengths and parameter series under the step condition", "why_tests_cant": "an invariant along an unbounded recursion with arbitrary time-varying parameters", "anchors": ["src/numerics/euler.py: solve_fwd", "src/numerics/heun.py: solve_fwd", "src/numerics/runge_kutta2.py: solve_fwd", "src/numerics/runge_kutta4.py: solve_fwd"]}
{"id": "C29", "title": "Scalar noise bookkeeping", "statement": "For DoubleWell and OrnsteinUhlenbeck objects, after any sequence of constructions and attempted assignments to sigma and theta, sigma > 0 and inverse_sigma * sigma = 1 (and theta > 0 for OrnsteinUhlenbeck); an assignment that raises leaves the object unchanged; assignments are rejected exactly when the value is not strictly positive.", "quantifier": "all operation histories, all real arguments", "why_tests_cant": "quantifies over histories of accepted and rejected assignments", "anchors": ["src/dynamics/double_well.py: DoubleWell.__init__, sigma.setter, theta.setter, inverse_sigma", "src/dynamics/ornstein_uhlenbeck.py: OrnsteinUhlenbeck.__init__, sigma.setter, theta.setter, inverse_sigma"]}
{"id": "C30", "title": "Lorenz constructors accept the documented noise forms", "statement": "Lorenz63/Lorenz96 accept a positive scalar (giving sigma*I), a positive vector (giving diag) or a symmetric positive definite matrix, reject everything of another shape with ValueError and every symmetric matrix that is not positive definite with RuntimeError, and then inverse_sigma is the inverse of sigma.", "quantifier": "all scalars, vectors, matrices; all dimensions >= 10 for Lorenz96", "why_tests_cant": "acceptance over all matrices; the shipped Lorenz parameter files rely on the scalar form", "anchors": ["src/dynamics/lorenz_63.py: Lorenz63.__init__", "src/dynamics/lorenz_96.py: Lorenz96.__init__", "sim_params_L3D.json", "sim_params_L40D.json"]}
{"id": "C31", "title": "Noise assignment is all-or-nothing for Lorenz models", "statement": "Assigning sigma on a Lorenz63/Lorenz96 object either succeeds, and then inverse_sigma is the inverse of sigma, or raises and leaves sigma and inverse_sigma as they were.", "quantifier": "all object states and all assigned matrices, all histories", "why_tests_cant": "the failure path matters only for special matrices and shows up later, in another method", "anchors": ["src/dynamics/lorenz_63.py: sigma.setter", "src/dynamics/lorenz_96.py: sigma.setter"]}
{"id": "C32", "title": "Time window covers the requested interval", "statement": "make_trajectory(t0, tf, dt) with t0 <= tf and dt > 0 creates a uniform grid with spacing exactly dt that starts at t0 and whose last point lies in [tf, tf+dt); when tf - t0 is a multiple N of dt the grid is exactly t0, t0+dt, ..., tf with N+1 points; the sample path has one entry per grid point, and time_step returns dt as soon as t0 < tf.", "quantifier": "all t0, tf, dt (exact arithmetic), all four models", "why_tests_cant": "a counting statement over all real windows", "anchors": ["src/dynamics/double_well.py: make_trajectory", "src/dynamics/ornstein_uhlenbeck.py: make_trajectory", "src/dynamics/lorenz_63.py: make_trajectory", "src/dynamics/lorenz_96.py: make_trajectory", "src/dynamics/stochastic_process.py: time_step"]}
{"id": "C33", "title": "Sample paths are Euler-Maruyama paths of the documented drift", "statement": "Consecutive entries of the sample path satisfy x[t] = x[t-1] + f(x[t-1]) dt + e[t], where f is the documented drift of the model (double well 4x(theta-x^2), Ornstein-Uhlenbeck theta(mu-x), the Lorenz-63 and Lorenz-96 equations) and e[t] is the t-th scaled noise draw. Lorenz paths start where 5000 noise-free Euler steps of size 0.001 lead from the default point.", "quantifier": "all models, parameters, windows and random streams", "why_tests_cant": "a recursion for every index and every noise realisation", "anchors": ["src/dynamics/double_well.py: make_trajectory", "src/dynamics/ornstein_uhlenbeck.py: make_trajectory", "src/dynamics/lorenz_63.py: l63, make_trajectory", "src/dynamics/lorenz_96.py: l96, make_trajectory"]}
{"id": "C34", "title": "Driving noise has the requested covariance", "statement": "The matrix that multiplies the standard normal draws in Lorenz63/Lorenz96 make_trajectory is a square root of sigma*dt, i.e. the increments' covariance is exactly sigma*dt, for every symmetric positive definite sigma.", "quantifier": "all dimensions, all symmetric positive definite sigma, all dt > 0", "why_tests_cant": "a covariance cannot be observed from finitely many samples, and diagonal test matrices hide a transposed factor", "anchors": ["src/dynamics/lorenz_63.py: make_trajectory", "src/dynamics/lorenz_96.py: make_trajectory"]}
{"id": "C35", "title": "Seeds make runs reproducible", "statement": "Two models of the same class built with the same parameters and the same given integer seed produce the same sample path and observations for the same sequence of calls, whatever the operating system's entropy.", "quantifier": "all seeds, all call sequences, all entropy sources", "why_tests_cant": "two-run property over all seeds; one special seed suffices to break it", "anchors": ["src/dynamics/stochastic_process.py: StochasticProcess.__init__, rng, collect_obs", "src/dynamics/double_well.py: make_trajectory", "src/dynamics/ornstein_uhlenbeck.py: make_trajectory"]}
{"id": "C36", "title": "Accessors are guarded", "statement": "sample_path, time_window, time_step and collect_obs raise NotImplementedError until the object has been given the path/window they need, and never afterwards for that reason.", "quantifier": "all histories of setter and accessor calls", "why_tests_cant": "ranges over call histories", "anchors": ["src/dynamics/stochastic_process.py: sample_path, time_window, time_step, collect_obs"]}
{"id": "C37", "title": "Observation indices are valid, distinct, increasing and equidistant", "statement": "Whenever floor(T*n_obs) is at least one, collect_obs(n_obs, ...) on a uniform window of length T returns exactly floor(T*n_obs) observation indices, strictly increasing, all between 1 and dim_t - 1, with consecutive gaps that differ by at most one.", "quantifier": "all windows, steps and densities accepted by the density check; for the multi-dimensional processes, at least two observed components (for a single one see C39)", "why_tests_cant": "an index computation over all sizes; off-by-one and duplicate indices appear only for particular ratios", "anchors": ["src/dynamics/stochastic_process.py: collect_obs"]}
{"id": "C38", "title": "Observation density is capped", "statement": "For n_obs >= 0 and noise arguments of a fitting shape, collect_obs raises ValueError exactly when n_obs exceeds floor(1/dt); an accepted density that gives at least one observation never fails because two observation indices coincide.", "quantifier": "all windows and densities; for the multi-dimensional processes, at least two observed components (for a single one see C39)", "why_tests_cant": "boundary over all real steps", "anchors": ["src/dynamics/stochastic_process.py: collect_obs"]}
{"id": "C39", "title": "Observations are path values plus scaled noise", "statement": "Each returned observation equals the (masked) sample path at its index plus noise scaled by a square root of the returned observation-noise matrix, the sample path itself is not modified, and this works for unmasked paths and for every mask of at least one component.", "quantifier": "all paths, masks, noise specifications (scalar, vector, matrix), random streams", "why_tests_cant": "aliasing and broadcasting issues depend on shapes", "anchors": ["src/dynamics/stochastic_process.py: collect_obs"]}
{"id": "C40", "title": "Ornstein-Uhlenbeck energy is the expected squared drift mismatch", "statement": "OrnsteinUhlenbeck.energy returns as Esde the trapezoidal integral of E[(f(x)-g(x))^2]/(2 sigma) under the marginal normals, with f(x) = -theta x and g(x) = -a x + b; Ef and Edf are E[f] and E[f'].", "quantifier": "all lengths, parameter series, means and variances >= 0", "why_tests_cant": "equality of an algebraic expression with an integral over the normal law for all arguments", "anchors": ["src/dynamics/ornstein_uhlenbeck.py: OrnsteinUhlenbeck.energy"]}
{"id": "C41", "title": "Ornstein-Uhlenbeck energy gradients are exact", "statement": "The gradients returned by OrnsteinUhlenbeck.energy are the exact partial derivatives of the pointwise energy with respect to m and s, and of Esde with respect to theta and sigma.", "quantifier": "all arguments", "why_tests_cant": "derivatives over all reals", "anchors": ["src/dynamics/ornstein_uhlenbeck.py: OrnsteinUhlenbeck.energy"]}
{"id": "C42", "title": "Double-well energy is the expected squared drift mismatch", "statement": "DoubleWell.energy returns as Esde the trapezoidal integral of E[(f(x)-g(x))^2]/(2 sigma) under the marginal normals, with f(x) = 4x(theta - x^2) and g(x) = -a x + b; Ef and Edf are E[f] and E[f']; hence Esde >= 0.", "quantifier": "all lengths, parameter series, means and variances >= 0", "why_tests_cant": "equality of a degree-six polynomial with an integral for all arguments", "anchors": ["src/dynamics/double_well.py: DoubleWell.energy"]}
{"id": "C43", "title": "Double-well energy gradients are exact", "statement": "The gradients returned by DoubleWell.energy are the exact partial derivatives of the pointwise energy it integrates with respect to m and s, and of Esde with respect to theta and sigma.", "quantifier": "all arguments", "why_tests_cant": "derivatives over all reals; the gradient and the value are written out separately and can drift apart", "anchors": ["src/dynamics/double_well.py: DoubleWell.energy"]}
{"id": "C44", "title": "Lorenz-63 energy is the expected squared drift mismatch", "statement": "At each time Lorenz63's energy uses exactly E[(f_i(x)-g_i(x))^2], i = 1..3, under the 3-D normal law with the given mean and covariance, f the Lorenz-63 drift and g(x) = -A x + b; hence each is non-negative.", "quantifier": "all parameters, A, b, means and positive semidefinite covariances", "why_tests_cant": "hundreds of hand-expanded monomials versus an integral over R^3, for all 24 real arguments", "anchors": ["src/dynamics/lorenz_63.py: Lorenz63.energy_dm_ds, Lorenz63.energy"]}
{"id": "C45", "title": "Lorenz-63 mean gradient is exact", "statement": "The dEsde_dm returned by Lorenz63.energy at each time is the gradient of the pointwise energy with respect to the mean.", "quantifier": "all arguments", "why_tests_cant": "derivatives over all reals", "anchors": ["src/dynamics/lorenz_63.py: Lorenz63.energy_dm_ds"]}
{"id": "C46", "title": "Lorenz-63 covariance gradient is exact", "statement": "The dEsde_ds returned by Lorenz63.energy is the gradient of the pointwise energy with respect to the covariance matrix, in the same convention as the likelihood gradient and the backward ODE use: the first-order change of the energy for a symmetric perturbation D is the sum over i, j of dEsde_ds[i,j]*D[i,j].", "quantifier": "all arguments, all symmetric perturbations", "why_tests_cant": "a factor of two off the diagonal is invisible on diagonal covariances", "anchors": ["src/dynamics/lorenz_63.py: Lorenz63.energy_dm_ds"]}
{"id": "C47", "title": "Lorenz-63 average drift, Jacobian and theta gradient are exact", "statement": "Ef, Edf and the integrand of dEsde_dtheta returned by Lorenz63.energy are E[f], E[df/dx] and the expectation of the mismatch times the parameter derivative of the drift, under the 3-D normal law.", "quantifier": "all arguments with positive semidefinite covariance", "why_tests_cant": "equalities with integrals over R^3", "anchors": ["src/dynamics/lorenz_63.py: Lorenz63.energy, Lorenz63.Efg_drift_theta"]}
{"id": "C48", "title": "Lorenz-96 average drift and Jacobian are exact", "statement": "Lorenz96's average drift is E[f(x)] and its average Jacobian is E[df/dx] under the normal law with the given mean and covariance, with f_i = (x_{i+1} - x_{i-2}) x_{i-1} - x_i + theta, indices modulo the dimension, for every dimension >= 4.", "quantifier": "all dimensions, means and positive definite covariances", "why_tests_cant": "cyclic index arithmetic in every dimension", "anchors": ["src/dynamics/lorenz_96.py: E96_drift, E96_drift_dx, l96, shift_vectors"]}
{"id": "C49", "title": "Lorenz-96 drift of a batch is computed sample by sample", "statement": "When the Lorenz-96 drift is applied to an array of samples (as the unscented transform does), row r of the result is the drift of row r.", "quantifier": "all batch sizes, dimensions, samples", "why_tests_cant": "the shift of a 2-D array only mixes rows at the boundary columns", "anchors": ["src/dynamics/lorenz_96.py: l96, shift_vectors, Lorenz96.energy"]}
{"id": "C50", "title": "Lorenz-96 energy is non-negative", "statement": "The Esde returned by Lorenz96.energy is non-negative for every input on which it succeeds.", "quantifier": "all dimensions, lengths and inputs", "why_tests_cant": "over all inputs", "anchors": ["src/dynamics/lorenz_96.py: Lorenz96.energy", "src/numerics/utilities.py: ut_approx"]}
{"id": "C51", "title": "1-D observation energy is the expected negative log-likelihood", "statement": "GaussianLikelihood in 1-D returns the sum over observations of E[-log N(y_n | H x, R)] for x normal with mean m[t_n] and variance s[t_n], and its m and s gradients are the exact partial derivatives of that value at the observation times and zero elsewhere.", "quantifier": "all series, observation sets with distinct indices, noise > 0, scalar operators H", "why_tests_cant": "equality with an integral for all arguments", "anchors": ["src/var_bayes/gaussian_like.py: gauss_1d, gradients_1d", "src/var_bayes/likelihood.py: Likelihood.__init__"]}
{"id": "C52", "title": "1-D noise gradient", "statement": "The third gradient returned by GaussianLikelihood in 1-D is the derivative of each observation's energy with respect to the noise variance R.", "quantifier": "all arguments", "why_tests_cant": "derivative over all reals", "anchors": ["src/var_bayes/gaussian_like.py: gradients_1d"]}
{"id": "C53", "title": "n-D observation energy is the expected negative log-likelihood", "statement": "GaussianLikelihood in n-D (identity operator) returns the sum over observations of E[-log N(y_n | x, R)] for x normal with mean m[t_n] and covariance s[t_n].", "quantifier": "all dimensions, series, observation index sets, noise matrices", "why_tests_cant": "index mix-ups between observation number and time index are invisible when the covariance is constant in time", "anchors": ["src/var_bayes/gaussian_like.py: gauss_nd"]}
{"id": "C54", "title": "n-D observation gradients", "statement": "With the identity operator, GaussianLikelihood's n-D gradients are R^-1(m[t_n]-y_n) and R^-1/2 at the observation times and zero elsewhere, i.e. the exact derivatives of the expected negative log-likelihood.", "quantifier": "all dimensions, series, distinct observation indices, positive definite noise", "why_tests_cant": "all dimensions", "anchors": ["src/var_bayes/gaussian_like.py: gradients_nd"]}
{"id": "C55", "title": "1-D prior term is the Kullback-Leibler divergence", "statement": "PriorKL0 in 1-D returns KL(N(m0,s0) || N(mu0,tau0)); it is non-negative and zero when the moments agree.", "quantifier": "all means, all positive variances", "why_tests_cant": "equality with an integral; at s0 = 1 a wrong coefficient of log s0 is invisible", "anchors": ["src/var_bayes/prior_kl0.py: gauss_1d"]}
{"id": "C56", "title": "n-D prior term is the Kullback-Leibler divergence", "statement": "PriorKL0 in n-D returns KL(N(m0,s0) || N(mu0,tau0)) for vectors m0, mu0 and positive definite s0, tau0.", "quantifier": "all dimensions, means, covariances", "why_tests_cant": "broadcasting errors vanish when m0 = mu0 or d = 1", "anchors": ["src/var_bayes/prior_kl0.py: gauss_nd"]}
{"id": "C57", "title": "Prior gradients", "statement": "gradients returns lam0 plus the derivative of the Kullback-Leibler divergence with respect to m0, and psi0 plus its derivative with respect to s0.", "quantifier": "all dimensions, means, covariances, multipliers", "why_tests_cant": "derivatives over all reals and dimensions", "anchors": ["src/var_bayes/prior_kl0.py: gradients, gradients_1d, gradients_nd"]}
{"id": "C58", "title": "Parameter packing round-trips", "statement": "Packing linear and offset parameters into one vector and unpacking them (in free_energy, gradient and Simulation.run) is the identity in both directions, with vector length dim_n*dim_d*(dim_d+1).", "quantifier": "all lengths and dimensions", "why_tests_cant": "index arithmetic in every dimension", "anchors": ["src/var_bayes/variational.py: initialization, free_energy, gradient", "src/var_bayes/simulation.py: Simulation.run"]}
{"id": "C59", "title": "Free energy is a function of its argument", "statement": "VarGP.free_energy(x) returns prior + SDE + observation energies of the moments obtained by the forward sweep from x, and returns the same value whatever calls were made before.", "quantifier": "all call histories, all x", "why_tests_cant": "history-independence of a stateful object", "anchors": ["src/var_bayes/variational.py: free_energy"]}
{"id": "C60", "title": "gradient(x, eval_fun=True) is a function of its argument", "statement": "VarGP.gradient(x, eval_fun=True) returns the same value whatever calls were made before; gradient(x) without evaluation returns that same value whenever the latest free_energy evaluation was at x, and raises KeyError on a fresh object.", "quantifier": "all call histories, all x", "why_tests_cant": "stale-cache behaviour depends on the history", "anchors": ["src/var_bayes/variational.py: gradient, free_energy, arg_out"]}
{"id": "C61", "title": "Gradient assembles the derivatives of the energy density", "statement": "With the multipliers set to zero, the a- and b-blocks of VarGP.gradient at index k are dt times the exact partial derivatives of E[(f-g)^2]/(2 sigma) with respect to a[k] and b[k] at fixed moments; the multipliers enter as -dt*(lam m + 2 psi s) and +dt*lam.", "quantifier": "all series, both 1-D models (n-D: all dimensions, quadratic drifts)", "why_tests_cant": "derivatives over all reals, Stein's identity in disguise", "anchors": ["src/var_bayes/variational.py: gradient, _dEsde_da, _dEsde_db, _grad_at"]}
{"id": "C62", "title": "Initial parameters follow the interpolated observations", "statement": "VarGP.initialization returns parameters of the right length whose constant linear part makes 0.25 the stationary variance, and whose Euler forward mean, started on the interpolating curve, follows the curve through the observations exactly.", "quantifier": "all dimensions, windows, interpolants, 1-D and n-D", "why_tests_cant": "an identity along the whole grid", "anchors": ["src/var_bayes/variational.py: initialization", "src/numerics/euler.py: solve_fwd"]}
{"id": "C63", "title": "Initialization accepts every observation set that collect_obs produces", "statement": "VarGP.initialization succeeds on every non-empty strictly increasing set of observation indices inside the window, in particular on everything collect_obs returns.", "quantifier": "all windows and densities", "why_tests_cant": "fails only at boundary densities", "anchors": ["src/var_bayes/variational.py: initialization", "src/dynamics/stochastic_process.py: collect_obs"]}
{"id": "C64", "title": "SCG returns a consistent pair", "statement": "For a deterministic objective, SCG returns (x, fx) with fx = f(x), on every exit path and for every arithmetic (including floating point).", "quantifier": "all objectives, gradients, start points, iteration limits, all execution paths", "why_tests_cant": "four exit paths and an unbounded loop", "anchors": ["src/numerics/optim_scg.py: SCG.__call__"]}
{"id": "C65", "title": "SCG never worsens the objective", "statement": "fx <= f(x0), and the recorded sequence of objective values is non-increasing, for every objective and every gradient function (even a wrong one).", "quantifier": "all objectives and gradient functions, all iteration limits", "why_tests_cant": "an invariant of an unbounded loop over arbitrary functions", "anchors": ["src/numerics/optim_scg.py: SCG.__call__"]}
{"id": "C66", "title": "SCG scale parameter stays in range and step is a descent step", "statement": "On every iteration the scale parameter is at least 1e-15, the step length is strictly positive and the directional derivative along the search direction is strictly negative; no division by zero occurs.", "quantifier": "all objectives, gradients, iterations", "why_tests_cant": "an invariant of an unbounded loop", "anchors": ["src/numerics/optim_scg.py: SCG.__call__"]}
{"id": "C67", "title": "SCG evaluation counters are accurate", "statement": "After a call, statistics' f_eval and df_eval have increased by exactly the number of objective and gradient evaluations made (an eval_fun gradient call counting as both), at most 1+3*max_it objective evaluations and 1+2*max_it gradient evaluations.", "quantifier": "all objectives, gradients, runs", "why_tests_cant": "counting over all execution paths", "anchors": ["src/numerics/optim_scg.py: SCG.__call__, statistics"]}
{"id": "C68", "title": "SCG never uses a stale gradient", "statement": "With an objective/gradient pair that shares state (as VarGP does), every gradient SCG uses is the gradient at the point it is meant for: each plain gradient call immediately follows an objective call at the same point, so the run coincides with one using a pure gradient function.", "quantifier": "all stateful objectives with VarGP's protocol, all runs", "why_tests_cant": "a protocol property over all execution paths", "anchors": ["src/numerics/optim_scg.py: SCG.__call__", "src/var_bayes/variational.py: gradient"]}
{"id": "C69", "title": "State left behind matches the returned point", "statement": "When SCG returns x, the shared state of the objective (the posterior moments that Simulation.run stores) is the one computed at x.", "quantifier": "all objectives and runs", "why_tests_cant": "only one exit path after a particular last iteration breaks it", "anchors": ["src/numerics/optim_scg.py: SCG.__call__", "src/var_bayes/simulation.py: Simulation.run", "src/var_bayes/variational.py: arg_out"]}
{"id": "C70", "title": "SCG stopping reasons", "statement": "SCG performs at most max_it iterations, and when it returns before that either the search direction is numerically zero, or the last step moved every coordinate by at most x_tol and the objective by at most f_tol, or the squared gradient norm at x is at most 1e-8; in each of these cases statistics['MaxIt'] is the number of iterations begun.", "quantifier": "all runs", "why_tests_cant": "over all execution paths", "anchors": ["src/numerics/optim_scg.py: SCG.__call__, statistics"]}
{"id": "C71", "title": "SCG accepts every step on a convex quadratic", "statement": "On a convex quadratic objective with its exact gradient every iteration is accepted (success), whatever the scale parameter and direction.", "quantifier": "all dimensions, positive semidefinite quadratics, start points, iteration limits", "why_tests_cant": "over all quadratics and an unbounded loop", "anchors": ["src/numerics/optim_scg.py: SCG.__call__"]}
{"id": "C72", "title": "SCG works with any gradient callable of the documented form", "statement": "SCG(f, df) accepts a gradient function df(x) as documented; extra arguments passed to the call are forwarded to every evaluation of f and df.", "quantifier": "all plain gradient functions, start points", "why_tests_cant": "an interface property for all callables (the repository's own SCG tests are documented to fail)", "anchors": ["src/numerics/optim_scg.py: SCG.__init__, SCG.__call__", "src/tests/test_scg.py: TestSCG"]}
{"id": "C73", "title": "SCG statistics are per call", "statement": "After a call, statistics['MaxIt'] describes that call, also when the same SCG object is called repeatedly.", "quantifier": "all sequences of calls", "why_tests_cant": "history property", "anchors": ["src/numerics/optim_scg.py: SCG.__init__, SCG.__call__, statistics"]}
{"id": "C74", "title": "Gradient checker verdict", "statement": "check_gradient_function prints PASSED exactly when the norm of the difference of analytic and numerical gradients divided by the number of parameters is at most tol.", "quantifier": "all functions, points, tolerances", "why_tests_cant": "over all functions", "anchors": ["src/numerics/optim_scg.py: SCG.check_gradient_function"]}
{"id": "C75", "title": "Model names", "statement": "Simulation accepts exactly the model names DW, OU, L63, L96 up to letter case and raises ValueError for every other name.", "quantifier": "all (ASCII) strings", "why_tests_cant": "over all strings", "anchors": ["src/var_bayes/simulation.py: Simulation._stochastic_model, dynamical_systems"]}
{"id": "C76", "title": "Workflow order is enforced", "statement": "run() before a successful setup() raises, save() before a successful run() writes no file, and a failed run() leaves the output of the last successful run in place.", "quantifier": "all histories of setup/run/save calls", "why_tests_cant": "ranges over call histories and failure points", "anchors": ["src/var_bayes/simulation.py: Simulation.setup, Simulation.run, Simulation.save"]}
{"id": "C77", "title": "User-supplied data are used", "statement": "When observations are passed to setup() (as vgpa_main does with --data), the following run() uses them.", "quantifier": "all data sets, all histories", "why_tests_cant": "the data path is never exercised by the tests", "anchors": ["src/var_bayes/simulation.py: Simulation.setup, Simulation.run", "vgpa_main.py: main"]}
{"id": "C78", "title": "save/load round-trip", "statement": "load(file) after save() returns exactly the keys of the output dictionary with equal array contents, scalars becoming one-element arrays; saving twice gives the same file.", "quantifier": "all output dictionaries", "why_tests_cant": "over all dictionaries", "anchors": ["src/var_bayes/simulation.py: Simulation.save, load"]}
{"id": "C79", "title": "Output file names", "statement": "The file written by save() is the simulation name without surrounding blanks, with inner blanks replaced by underscores, plus .h5; it never contains a blank, and different simulation names give different files.", "quantifier": "all names", "why_tests_cant": "over all strings", "anchors": ["src/var_bayes/simulation.py: Simulation.save"]}
{"id": "C80", "title": "Parameter-file validation", "statement": "validate_input_parameters_file returns the parameters exactly when all nine required keys are present and raises ValueError naming a missing one otherwise; unknown extra keys are ignored.", "quantifier": "all key sets", "why_tests_cant": "over all dictionaries", "anchors": ["vgpa_main.py: validate_input_parameters_file"]}
{"id": "C81", "title": "Command line exit status", "statement": "main exits with status 1 when the parameter file is missing, invalid JSON or lacks a key, or when setup, run or save raises; it returns normally only after save() has been called on a simulation that was set up and run.", "quantifier": "all outcomes of the steps", "why_tests_cant": "over all combinations of failures", "anchors": ["vgpa_main.py: main"]}
{"id": "C82", "title": "Lorenz noise gradients are exact", "statement": "For Lorenz63 and Lorenz96, the returned dEsde_dsigma is the gradient of the returned Esde with respect to the noise matrix: along every symmetric direction D, assigning sigma + eps*D through the sigma property changes Esde at the rate sum_ij dEsde_dsigma[i,j]*D[i,j].", "quantifier": "all positive definite noise matrices, symmetric directions, marginals, drifts and grids", "why_tests_cant": "derivatives over a continuum of matrices", "anchors": ["src/dynamics/lorenz_63.py: Lorenz63.energy, Lorenz63.sigma", "src/dynamics/lorenz_96.py: Lorenz96.energy, Lorenz96.sigma"]}
{"id": "C83", "title": "Lorenz energy weights the mismatch with the full inverse noise", "statement": "Lorenz63.energy returns the trapezoidal integral of E[(f-g)^T Sigma^-1 (f-g)]/2 for every positive definite noise matrix.", "quantifier": "all noise matrices, marginals, drifts and grids", "why_tests_cant": "an identity over all correlated noise matrices", "anchors": ["src/dynamics/lorenz_63.py: Lorenz63.energy"]}
{"id": "C84", "title": "The reported free energy belongs to the reported parameters", "statement": "After a successful run(), the stored fx is the free energy of the stored arrays at and bt, and it is at most the free energy of the parameters the optimizer started from.", "quantifier": "all simulations, configurations, generators and interpolants with which run() succeeds", "why_tests_cant": "needs the whole chain of classes for every configuration and every course of the optimizer", "anchors": ["src/var_bayes/simulation.py: Simulation.run", "src/var_bayes/variational.py: VarGP.free_energy, VarGP.arg_out", "src/numerics/optim_scg.py: SCG.__call__"]}
{"id": "C85", "title": "The reported moments belong to the reported parameters", "statement": "After a successful run(), the stored m0, s0, mt, st, Efx, Edf, lamt and psit are those that an evaluation of the free energy at the stored at and bt gives.", "quantifier": "all simulations with which run() succeeds", "why_tests_cant": "depends on which point the optimizer evaluated last, over all courses of the optimizer", "anchors": ["src/var_bayes/simulation.py: Simulation.run", "src/var_bayes/variational.py: VarGP.arg_out", "src/numerics/optim_scg.py: SCG.__call__"]}
{"id": "C86", "title": "Names and shapes of the output", "statement": "In every history of setup, run and save calls, a successful run() leaves exactly the eleven documented names in the output, each with its documented shape for the number of time points and the state dimension.", "quantifier": "all histories, configurations, generators", "why_tests_cant": "shapes depend on the whole chain of classes and on what earlier calls left behind", "anchors": ["src/var_bayes/simulation.py: Simulation.run, Simulation.output", "src/var_bayes/variational.py: VarGP.arg_out"]}
{"id": "C87", "title": "A valid one-dimensional configuration always completes", "statement": "For every valid Double-Well or Ornstein-Uhlenbeck configuration (positive noise, a window that is a whole number of steps, a known ODE method, at least one observation but not one at every step), setup() and run() succeed whatever the simulation did before, and the output has the eleven arrays for the N+1 time points.", "quantifier": "all configurations, all seeds and generator states, all earlier histories of the simulation object", "why_tests_cant": "ranges over all configurations, random draws and courses of the optimizer", "anchors": ["src/var_bayes/simulation.py: Simulation.setup, Simulation.run", "src/var_bayes/variational.py: VarGP", "src/numerics/optim_scg.py: SCG.__call__"]}
{"id": "C88", "title": "Parameter files run from the command line", "statement": "vgpa_main on a parameter file that contains a valid one-dimensional configuration returns with status 0 and leaves an output file that load() reads back with the eleven documented arrays; the parameter files that ship with the project are such files and run to the end.", "quantifier": "all parameter files with valid one-dimensional configurations; the three shipped files", "why_tests_cant": "needs every configuration and the whole chain from the file to the saved output", "anchors": ["vgpa_main.py: main", "src/var_bayes/simulation.py: Simulation.save, load", "sim_params_DW.json: Model", "sim_params_L3D.json: Noise", "sim_params_L40D.json: Noise"]}
{"id": "C89", "title": "A simulation with a seed can be repeated", "statement": "Two programs that make the same setup/run/save calls on new simulations, each setup with an integer seed, see the same outcomes and end with the same output, data and files, whatever the operating system provides as randomness.", "quantifier": "all histories of setup/run/save calls, all system states", "why_tests_cant": "ranges over all histories and over what the operating system returns as entropy", "anchors": ["src/var_bayes/simulation.py: Simulation.setup, Simulation.run, Simulation.save"]}
{"id": "C90", "title": "setup() simulates the configured process", "statement": "After setup(params) with a valid one-dimensional configuration, the simulation holds a process with the configured noise and drift parameter whose path is the Euler-Maruyama path on the configured window; the observations are path values at equidistant indices plus independent normal errors of the configured variance; the initial mean is the first path value plus a normal error of standard deviation 0.1 and the initial variance 0.2; all normal numbers are distinct members of the one sequence that the configured seed gives.", "quantifier": "all valid one-dimensional configurations, generators, and earlier histories of the simulation", "why_tests_cant": "which random number goes where has to hold for every configuration, generator and history", "anchors": ["src/var_bayes/simulation.py: Simulation.setup", "src/dynamics/stochastic_process.py: StochasticProcess.collect_obs"]}
{"id": "C91", "title": "The reported number is the variational free energy of the configured problem", "statement": "After setup() and run() with a valid one-dimensional configuration, the stored fx equals KL(initial marginal || configured prior) plus the trapezoidal integral of the expected squared drift difference over twice the configured noise plus the expected negative log-likelihood of the observations, for the Gaussian process with the stored parameters at, bt and the moments that the configured integrator gives.", "quantifier": "all valid one-dimensional configurations, generators and histories", "why_tests_cant": "connects every configuration entry with the number that an optimizer run reports", "anchors": ["src/var_bayes/simulation.py: Simulation.setup, Simulation.run", "src/var_bayes/variational.py: VarGP.free_energy", "src/var_bayes/prior_kl0.py: PriorKL0.__call__", "src/var_bayes/gaussian_like.py: GaussianLikelihood.__call__"]}
{"id": "C92", "title": "The optimizer is the scaled conjugate gradient method", "statement": "With functions that compute an objective and a gradient, a call of the optimizer makes the iterations of the scaled conjugate gradient method (Moller, with Netlab's scale rules, Polak-Ribiere directions and restarts after as many steps as there are unknowns), returns the point reached with the value there, records value and scale of each iteration, and stops for the first of: no search direction, tolerances met, gradient close to zero, iterations used up.", "quantifier": "all objectives and gradient functions, start points, options and statistics left by earlier calls", "why_tests_cant": "an equality of two algorithms over all objectives and all courses of the iteration", "anchors": ["src/numerics/optim_scg.py: SCG.__call__"]}
{"id": "C93", "title": "Value and gradient statistics belong to the same point", "statement": "Entry j of statistics[fx] is the objective, and entry j of statistics[dfx] the sum of the absolute entries of the gradient, at the point that iteration j reached.", "quantifier": "all objectives, start points and iterations", "why_tests_cant": "over all courses of the iteration", "anchors": ["src/numerics/optim_scg.py: SCG.__call__, SCG.statistics"]}
{"id": "C94", "title": "run() minimizes the free energy by scaled conjugate gradients", "statement": "After a successful run(), the stored at and bt are the point that the scaled conjugate gradient method reaches from the object's start vector, applied to the free energy and its gradient, in at most 500 iterations and with tolerances 1e-6 and 1e-8; fx is the free energy there.", "quantifier": "all simulations with which run() succeeds", "why_tests_cant": "needs the whole chain of classes, including which stored moments each gradient uses, for every course of the optimizer", "anchors": ["src/var_bayes/simulation.py: Simulation.run", "src/var_bayes/variational.py: VarGP.free_energy, VarGP.gradient", "src/numerics/optim_scg.py: SCG"]}
{"id": "C95", "title": "Optimizer options", "statement": "An optimizer made without options makes at most 150 iterations with tolerances 1e-6 for the point and 1e-8 for the value; an option that is given replaces its default and leaves the other options alone; the statistics arrays have as many entries as there may be iterations.", "quantifier": "all options, objectives and start points", "why_tests_cant": "over all objectives and combinations of options", "anchors": ["src/numerics/optim_scg.py: SCG.__init__, SCG.__call__"]}
{"id": "C96", "title": "The gradient is the derivative of the free energy", "statement": "For every parameter vector x and direction v, the free energy at x + e v is differentiable in e at 0 and its derivative is the inner product of gradient(x) with v.", "quantifier": "all one-dimensional processes, data, parameter vectors and directions", "why_tests_cant": "a derivative is a limit; a finite-difference test cannot tell a gradient that is wrong by one step size from rounding", "anchors": ["src/var_bayes/variational.py: VarGP.free_energy, VarGP.gradient", "src/var_bayes/fwd_ode.py: FwdOde", "src/var_bayes/bwd_ode.py: BwdOde"]}
{"id": "C97", "title": "Valid Lorenz-63 configurations complete", "statement": "setup(params) and then run() succeed for every Lorenz-63 configuration with a positive definite noise matrix (given by variances or rows), positive observation and prior variances (given as numbers, lists or rows), a documented integrator, a usable seed and at least one observation; the output then has the eleven documented names with arrays of the documented shapes.", "quantifier": "all valid Lorenz-63 configurations, generators and earlier histories", "why_tests_cant": "every configuration, random path and course of the optimizer must be free of errors", "anchors": ["src/var_bayes/simulation.py: Simulation.setup, Simulation.run", "src/dynamics/lorenz_63.py: Lorenz63.__init__, Lorenz63.make_trajectory, Lorenz63.energy"]}
{"id": "C98", "title": "setup() simulates the configured Lorenz-63 process", "statement": "After setup(params) with a valid Lorenz-63 configuration, the simulation holds a process with the configured noise and drift parameters; its path is the Euler-Maruyama path on the configured window, with increments made by the triangular factor of dt times the noise; the observations are path values at equidistant indices plus normal errors of the configured variances; initial mean and covariance are made as documented; all normal numbers are distinct members of the one sequence that the configured seed gives.", "quantifier": "all valid Lorenz-63 configurations, generators, and earlier histories of the simulation", "why_tests_cant": "which random number goes where has to hold for every configuration, generator and history", "anchors": ["src/var_bayes/simulation.py: Simulation.setup", "src/dynamics/stochastic_process.py: StochasticProcess.collect_obs", "src/dynamics/lorenz_63.py: Lorenz63.make_trajectory"]}
{"id": "C99", "title": "The reported number is the free energy of the configured Lorenz-63 problem", "statement": "After setup() and run() with a valid Lorenz-63 configuration, the stored fx equals KL(initial marginal || configured prior) plus the trapezoidal integral of half the expected squared drift difference in the metric of the inverse noise plus the expected negative log-likelihood of the observations, for the Gaussian process with the stored parameters at, bt and the moments that the configured integrator gives.", "quantifier": "all valid Lorenz-63 configurations, generators and histories", "why_tests_cant": "connects every configuration entry with the number that an optimizer run reports", "anchors": ["src/var_bayes/simulation.py: Simulation.setup, Simulation.run", "src/var_bayes/variational.py: VarGP.free_energy", "src/var_bayes/prior_kl0.py: PriorKL0.__call__", "src/var_bayes/gaussian_like.py: GaussianLikelihood.__call__", "src/dynamics/lorenz_63.py: Lorenz63.energy"]}
{"id": "C100", "title": "The command line program completes for valid Lorenz-63 files", "statement": "For every valid Lorenz-63 parameter file whose output file can be opened, the program ends with exit status 0 and load() of the output file returns the eleven documented arrays with the documented shapes.", "quantifier": "all valid Lorenz-63 parameter files, file systems and generators", "why_tests_cant": "a whole program over all inputs", "anchors": ["vgpa_main.py: main", "src/var_bayes/simulation.py: Simulation, load"]}
{"id": "C101", "title": "On a strictly convex quadratic the optimizer comes close to the minimum", "statement": "When the function is a quadratic whose curvature lies between m > 0 and L and the supplied gradient is its gradient, every call that returns gives a value whose distance to the minimum is at most the largest of: a fixed rate r < 1, depending on m and L only, to the power of the configured number of iterations times the distance at the start; r/(1-r) times the tolerance for the function value; and 1e-8/(2m).", "quantifier": "all strictly convex quadratics in any number of variables, options and starting points", "why_tests_cant": "a convergence rate over all problems, sizes and iteration counts", "anchors": ["src/numerics/optim_scg.py: SCG.__call__"]}
{"id": "C102", "title": "setup() simulates the configured Lorenz-96 process", "statement": "setup(params) succeeds for every valid Lorenz-96 configuration (positive definite noise given by forty variances or rows; observation variances and prior as numbers, lists or rows). Afterwards the simulation holds a process with the configured noise and forcing; its path is the Euler-Maruyama path on the configured window, with increments made by the triangular factor of dt times the noise; the observations are path values at equidistant indices plus normal errors of the configured variances; initial mean and covariance are made as documented; all normal numbers are distinct members of the one sequence that the configured seed gives.", "quantifier": "all valid Lorenz-96 configurations, generators, and earlier histories of the simulation", "why_tests_cant": "which random number goes where has to hold for every configuration, generator and history", "anchors": ["src/var_bayes/simulation.py: Simulation.setup", "src/dynamics/stochastic_process.py: StochasticProcess.collect_obs", "src/dynamics/lorenz_96.py: Lorenz96.make_trajectory"]}
{"id": "C103", "title": "Valid Lorenz-96 configurations complete", "statement": "After setup(params) with a valid Lorenz-96 configuration, run() succeeds and the output has the eleven documented names with arrays of the documented shapes.", "quantifier": "all valid Lorenz-96 configurations, generators and earlier histories", "why_tests_cant": "every configuration, random path and course of the optimizer must be free of errors", "anchors": ["src/var_bayes/simulation.py: Simulation.setup, Simulation.run", "src/dynamics/lorenz_96.py: Lorenz96.energy", "src/numerics/optim_scg.py: SCG.__call__"]}
{"id": "C104", "title": "A Lorenz-63 process can be observed in some of its components", "statement": "With a mask (a list of three truth values) as observation operator, setup(params) of a valid Lorenz-63 configuration succeeds and records the selected components of the path at the observation times, each with its own normal error of the configured variance; run() then completes; and the energy and gradients of the observations are those of the selected components.", "quantifier": "all valid Lorenz-63 configurations, masks, generators and earlier histories", "why_tests_cant": "the number of selected components meets every later array operation of a run", "anchors": ["src/var_bayes/simulation.py: Simulation.setup, Simulation.run", "src/dynamics/stochastic_process.py: StochasticProcess.collect_obs", "src/var_bayes/gaussian_like.py: GaussianLikelihood.__call__", "src/var_bayes/variational.py: VarGP.initialization"]}
{"id": "C105", "title": "Covariances stay positive definite for small time steps", "statement": "Let the process noise be positive definite and the initial covariance positive semidefinite. For every length of the time window and every bound on the linear parameters there is a step size below which each of the four forward sweeps returns only positive definite covariances after the given first one (positive variances in one dimension), whatever the parameters within the bound and the offsets are.", "quantifier": "all dimensions, windows, bounds, noise and initial covariances, series of parameters within the bound, small enough steps, methods", "why_tests_cant": "every step of every series below a threshold that has to exist; failure shows far from the values a test would choose", "anchors": ["src/numerics/ode_solver.py: fun_mt, fun_st", "src/numerics/euler.py: Euler.solve_fwd", "src/numerics/heun.py: Heun.solve_fwd", "src/numerics/runge_kutta2.py: RungeKutta2.solve_fwd", "src/numerics/runge_kutta4.py: RungeKutta4.solve_fwd"]}
{"id": "C106", "title": "The forward sweeps converge to the solution of the differential equations", "statement": "Let the linear and offset parameters be the values on the grid of Lipschitz continuous functions of time and let m, S solve the moment equations dm/dt = -A m + b, dS/dt = -A S - S A' + Sigma. Then the means and covariances returned by each of the four methods differ from m, S at all grid points by at most a constant times the step size, for all small steps.", "quantifier": "all dimensions, windows, Lipschitz continuous coefficient functions, solutions, methods, small enough steps", "why_tests_cant": "a limit statement over all coefficient functions", "anchors": ["src/numerics/ode_solver.py: fun_mt, fun_st", "src/numerics/euler.py: Euler.solve_fwd", "src/numerics/heun.py: Heun.solve_fwd", "src/numerics/runge_kutta2.py: RungeKutta2.solve_fwd", "src/numerics/runge_kutta4.py: RungeKutta4.solve_fwd"]}
{"id": "C107", "title": "The backward sweeps converge to the solution of the multiplier equations", "statement": "Let the linear parameters and the derivatives of the energy density be Lipschitz continuous in time, and let lam, psi vanish at the end of the window, solve the multiplier equations that the right-hand sides state (d lam/dt = -dE/dm + A lam, d psi/dt = -dE/dS + psi A + A^T psi) between the observations and jump by the given amounts at the observations. Then each of the four backward sweeps, on grids that contain the observation times, returns multipliers that differ from lam and psi by at most a constant times the time step. (For d > 1 the first equation is the adjoint of the mean equation only when A is symmetric, see C26.)", "quantifier": "all dimensions, windows, Lipschitz series, sets of jumps, small enough steps, methods", "why_tests_cant": "a limit over all step sizes, with jumps at arbitrary times", "anchors": ["src/numerics/ode_solver.py: OdeSolver.fun_lam, OdeSolver.fun_psi", "src/var_bayes/bwd_ode.py: BwdOde.__call__", "src/numerics/euler.py: Euler.solve_bwd", "src/numerics/heun.py: Heun.solve_bwd", "src/numerics/runge_kutta2.py: RungeKutta2.solve_bwd", "src/numerics/runge_kutta4.py: RungeKutta4.solve_bwd"]}
{"id": "C108", "title": "The free energy converges to its continuous-time value as the time step shrinks", "statement": "Let continuous-time parameters A, b be Lipschitz continuous and let m, S solve the moment equations. When free_energy() is called with the values of A, b on finer and finer grids of the same window, for the same observations at the same times, then the returned numbers converge, with an error of at most a constant times the time step, to the prior energy plus the integral over the window of the expected weighted squared difference of the two drifts over two plus the expected negative log-likelihoods of the observations under the Gaussians with moments m, S at the observation times.", "quantifier": "all windows, Lipschitz continuous parameters, solutions, observations, drift parameters, noises, methods, small enough steps", "why_tests_cant": "a limit over all step sizes, for all curves", "anchors": ["src/var_bayes/variational.py: VarGP.free_energy", "src/dynamics/ornstein_uhlenbeck.py: energy", "src/dynamics/double_well.py: energy", "src/dynamics/lorenz_63.py: Lorenz63.energy", "src/dynamics/lorenz_96.py: Lorenz96.energy", "src/var_bayes/gaussian_like.py: GaussianLikelihood.__call__", "src/var_bayes/fwd_ode.py: FwdOde.__call__"]}
{"id": "C109", "title": "The gradient per time step converges to the functional derivative of the free energy", "statement": "Fix a continuous-time problem for the Ornstein-Uhlenbeck or the double well process: Lipschitz continuous parameters a(t), b(t), mean and variance that solve the moment equations, observations at times before the end of the window. The continuous-time free energy (integral of the mismatch between drift and linear drift plus the expected negative log-likelihoods) has functional derivatives gA(t), gB(t) with respect to a and b. For grids with small step dt that contain the observation times, and any integrator, gradient() at the grid values of a, b returns two blocks which, divided by dt, differ from gA and gB at the grid points by at most a constant times dt.", "quantifier": "all continuous-time problems with Lipschitz parameters, all steps below a threshold, all four integrators, all directions", "why_tests_cant": "a statement about a limit over all grids and a derivative over all directions in a function space", "anchors": ["src/var_bayes/variational.py: gradient, free_energy", "src/dynamics/ornstein_uhlenbeck.py: energy", "src/dynamics/double_well.py: energy", "src/numerics/euler.py: solve_fwd, solve_bwd", "src/numerics/runge_kutta4.py: solve_fwd, solve_bwd", "src/var_bayes/likelihood.py: gradients"]}
{"id": "C110", "title": "The free energy bounds the negative log evidence from above", "statement": "The number that free_energy() returns is, up to the discretisation, an upper bound on the negative logarithm of the evidence: fix an Ornstein-Uhlenbeck process, a normal prior, observations with normal noise at times in the window, and any Gaussian process with Lipschitz continuous parameters a(t), b(t) whose moments solve the moment equations. Then at the grid values of a, b free_energy() returns at least minus the logarithm of the density of the observations under the process started from the prior, minus at most a constant times the time step.", "quantifier": "all windows, drift parameters, noises, priors, observations, approximations with Lipschitz parameters and any initial variance, methods, small enough steps", "why_tests_cant": "an inequality between a returned number and an integral over all paths, for all approximations and a limit over grids", "anchors": ["src/var_bayes/variational.py: VarGP.free_energy", "src/dynamics/ornstein_uhlenbeck.py: energy", "src/var_bayes/prior_kl0.py: gauss_1d", "src/var_bayes/gaussian_like.py: GaussianLikelihood.__call__", "src/var_bayes/fwd_ode.py: FwdOde.__call__"]}
{"id": "C111", "title": "The Lorenz-96 energy estimates the mismatch of drifts at the points of the unscented transformation", "statement": "Lorenz96.energy returns, for positive definite covariances, the trapezoidal rule applied to the weighted mean over the 2d+1 points of the unscented transformation of the mean and covariance at each time of half the squared difference between the Lorenz-96 drift of the point and the linear drift -A x + b, each component weighted with the diagonal of the inverse noise.", "quantifier": "all dimensions, processes, series of linear parameters, offsets, means and positive definite covariances, grids and observation indices", "why_tests_cant": "the drift of a batch of points has to be right for every point in every dimension", "anchors": ["src/dynamics/lorenz_96.py: Lorenz96.energy, l96", "src/numerics/utilities.py: ut_approx"]}
{"id": "C112", "title": "The Lorenz-96 energy gradients are the derivatives of the energy", "statement": "The gradients with respect to the means and covariances that Lorenz96.energy returns are the derivatives of the returned energy.", "quantifier": "all dimensions, processes, parameters, means, covariances and grids", "why_tests_cant": "derivatives in all directions at all points", "anchors": ["src/dynamics/lorenz_96.py: Lorenz96.energy", "src/var_bayes/variational.py: grad_Esde_dm_ds", "src/numerics/utilities.py: ut_approx"]}
{"id": "C113", "title": "The optimizer does not depend on the coordinates of the problem", "statement": "Describe one problem in two ways that differ in the order of the variables, in the signs of variables, in the origin and in a constant added to the objective. SCG called with the two descriptions at the same starting point ends in the same way: both calls raise the same exception, or both return the same point (in the two coordinate systems), the values differ by the constant, and the recorded statistics agree up to the constant.", "quantifier": "all dimensions, objectives and gradients (with or without memory, raising or not), permutations, signs, shifts, constants, options and starting points", "why_tests_cant": "a relation between two runs of any length, for all objectives", "anchors": ["src/numerics/optim_scg.py: SCG.__call__, SCG.maxit, SCG.stats"]}
{"id": "C114", "title": "The prior has no influence on the estimate and shifts the reported free energy by a constant", "statement": "If two parameter dictionaries agree in everything except the prior and setup() and run() complete with both, then every entry of the output except fx is the same, and the two free energies differ by the same constant at every parameter vector, in particular in fx.", "quantifier": "all pairs of parameter dictionaries that differ in the prior only, all earlier histories of the simulation, with or without given data, all four models", "why_tests_cant": "a relation between two complete runs of the optimizer", "anchors": ["src/var_bayes/simulation.py: Simulation.setup, Simulation.run", "src/var_bayes/variational.py: VarGP.free_energy, VarGP.gradient", "src/var_bayes/prior_kl0.py: PriorKL0.__call__", "src/numerics/optim_scg.py: SCG.__call__"]}
{"id": "C115", "title": "Rounding errors of the forward sweep stay of the order of unit roundoff over step size", "statement": "Run the forward sweep in floating-point arithmetic with unit roundoff u (every element-wise operation has a relative error of at most u; inner products are summed in any order). Let the linear and offset parameters be the values on the grid of Lipschitz continuous functions and let m, S solve the moment equations. Then the computed means and covariances of each of the four methods differ from m, S at all grid points by at most a constant times (dt + u/dt), for all small dt and u/dt; the constant does not depend on the arithmetic, the step or the method.", "quantifier": "all dimensions, windows, Lipschitz continuous coefficient functions, solutions, methods, arithmetics with unit roundoff u (without overflow and underflow), small enough steps and u/dt", "why_tests_cant": "a bound on accumulated errors for all arithmetics, grids and coefficient functions", "anchors": ["src/numerics/ode_solver.py: OdeSolver.fun_mt, OdeSolver.fun_st", "src/numerics/euler.py: Euler.solve_fwd", "src/numerics/heun.py: Heun.solve_fwd", "src/numerics/runge_kutta2.py: RungeKutta2.solve_fwd", "src/numerics/runge_kutta4.py: RungeKutta4.solve_fwd", "src/var_bayes/fwd_ode.py: FwdOde.__call__"]}
{"id": "C116", "title": "Rounding errors of the backward sweep stay of the order of unit roundoff over step size", "statement": "The same for the backward sweep: computed multipliers of each of the four methods, in floating-point arithmetic with unit roundoff u and on grids that contain the observation times, differ from the solutions of the multiplier equations with jumps at the observations by at most a constant times (dt + u/dt).", "quantifier": "all dimensions, windows, Lipschitz series, sets of jumps, methods, arithmetics with unit roundoff u (without overflow and underflow), small enough steps and u/dt", "why_tests_cant": "a bound on accumulated errors for all arithmetics, grids and series", "anchors": ["src/numerics/ode_solver.py: OdeSolver.fun_lam, OdeSolver.fun_psi", "src/numerics/euler.py: Euler.solve_bwd", "src/numerics/heun.py: Heun.solve_bwd", "src/numerics/runge_kutta2.py: RungeKutta2.solve_bwd", "src/numerics/runge_kutta4.py: RungeKutta4.solve_bwd", "src/var_bayes/bwd_ode.py: BwdOde.__call__"]}
{"id": "C117", "title": "A simulation object can be used again", "statement": "On a simulation with any history of setup, run and save calls, successful or not, setup(params, data) followed by run() has the same outcome and leaves the same output as on a new simulation.", "quantifier": "all four models, all parameter dictionaries, all histories of calls on the object, all generators and states of the operating system's randomness", "why_tests_cant": "a statement about all histories of calls, including failed ones", "anchors": ["src/var_bayes/simulation.py: Simulation.setup, Simulation.run, Simulation.__init__"]}
{"id": "C118", "title": "A setup() that raises has no effect", "statement": "When setup() raises, a following run() does what it would have done without that call.", "quantifier": "all parameter dictionaries on which setup() fails, at every point at which it can fail, all earlier histories", "why_tests_cant": "it must hold at every point at which an exception can be raised", "anchors": ["src/var_bayes/simulation.py: Simulation.setup, Simulation.run"]}
{"id": "C119", "title": "The Lorenz-96 free energy and its gradient are defined for small time steps", "statement": "Let the process noise and the initial covariance of a Lorenz-96 problem be positive definite. For every length of the time window and every bound on the linear parameters there is a step size below which free_energy() and gradient() return values (they do not raise LinAlgError) for every integrator, every grid in the window, all observations, all offsets and all linear parameters within the bound.", "quantifier": "every dimension above one, noise, initial covariance, window length, bound, integrator, grid, observations and parameter vector within the bound", "why_tests_cant": "the step size has to work for all parameter vectors within the bound and all grids; a test sees single vectors, and for a fixed step the call does raise for some (C103)", "anchors": ["src/var_bayes/variational.py: VarGP.free_energy, VarGP.gradient", "src/dynamics/lorenz_96.py: Lorenz96.energy", "src/numerics/utilities.py: ut_approx, chol_inv", "src/var_bayes/fwd_ode.py: FwdOde.__call__"]}
{"id": "C120", "title": "The stored arrays are the intermediate results that their names say", "statement": "After a successful run() the entries m0, s0, mt, st, Efx, Edf, lamt, psit of the output are the intermediate results of one evaluation of the free energy: mt, st are what the forward integrator returns from m0, s0 for the parameters, Efx, Edf are the averages of the drift and of its derivative that the model returns for these moments, lamt, psit are what the backward integrator returns for the gradients of the model's energy and of the likelihood with respect to mean and covariance, in this order, all in the documented shapes and in C order. The parameters are the stored at, bt unless the optimizer used all its iterations.", "quantifier": "all simulations, models, dimensions and parameters for which run() returns", "why_tests_cant": "the arrays come out of an optimisation of unbounded length; a swap of two arrays of the same shape changes no test on shapes", "anchors": ["src/var_bayes/variational.py: VarGP.free_energy, VarGP.arg_out", "src/var_bayes/simulation.py: Simulation.run"]}
{"id": "C121", "title": "The data made by setup have the distribution of the configured model", "statement": "If the generator yields independent standard normal numbers (and, for the double well, a uniform number first), then after setup(params) without a seed the stored path is an Euler-Maruyama path of the configured process whose increments are independent and normal with mean zero and covariance sys*dt, the observations have independent normal errors with the configured variances, the initial mean has an independent normal error with standard deviation 0.1, and all of these are jointly independent; a double well path starts at theta or -theta with probability 1/2 each, with a normal error of variance sys*dt/2.", "quantifier": "all configurations, window lengths, numbers of observations, earlier histories of the object and probability spaces carrying such a generator", "why_tests_cant": "a statement about a joint probability distribution over all outcomes of the generator; tests see samples for single seeds, and a number that is used twice or a covariance factor that is transposed is invisible in one path", "anchors": ["src/var_bayes/simulation.py: Simulation.setup", "src/dynamics/double_well.py: DoubleWell.make_trajectory", "src/dynamics/ornstein_uhlenbeck.py: OrnsteinUhlenbeck.make_trajectory", "src/dynamics/lorenz_63.py: Lorenz63.make_trajectory", "src/dynamics/lorenz_96.py: Lorenz96.make_trajectory", "src/dynamics/stochastic_process.py: StochasticProcess.collect_obs"]}
{"id": "C122", "title": "An interrupted save() does not lose results", "statement": "If the process is killed during save(), or the disk fails to open, write or close the file, then the file of the simulation holds its old contents or the complete new results; files with other names are as before; when save() returns normally the file is complete; and after any failure save() can be called again, on the same object, and then stores everything.", "quantifier": "all outputs, all contents of the disk, all points at which the process can be killed or the disk can fail, all ways in which a half-written file can end up", "why_tests_cant": "it must hold at every crash point and for every pattern of disk failures", "anchors": ["src/var_bayes/simulation.py: Simulation.save, Simulation.load"]}
{"id": "C123", "title": "Calls own the arrays they return and leave the caller's arrays alone", "statement": "free_energy(x), gradient(x) and the integrators change no array that existed before the call: not x, not the initial moments, not the observations, not a gradient or an output dictionary that an earlier call returned. The arrays they return or put into the output dictionary are new and share no memory with each other or with anything else. In any sequence of calls between which the caller overwrites x, returned gradients or replaced output arrays, every call returns what it would return if nobody else could reach the object's arrays. collect_obs adds the noise to a copy and leaves the path alone. The object in turn is not affected by later writes into the arrays it was given or that it hands out, and setup() does not change the arrays in the parameters.", "quantifier": "all memories, all ways in which the argument arrays overlap, all shapes, models, integrators and parameter values, all sequences of calls and of writes by the caller", "why_tests_cant": "aliasing shows only in particular sequences of calls and writes, of unbounded length; a test sees a few of them, and with values equal by chance sees nothing", "anchors": ["src/var_bayes/variational.py: VarGP.free_energy, VarGP.gradient, VarGP.arg_out, VarGP.__init__", "src/numerics/euler.py: Euler.solve_fwd, Euler.solve_bwd", "src/numerics/heun.py: Heun.solve_fwd", "src/numerics/runge_kutta2.py: RungeKutta2.solve_fwd", "src/numerics/runge_kutta4.py: RungeKutta4.solve_fwd", "src/var_bayes/likelihood.py: Likelihood.__init__", "src/dynamics/stochastic_process.py: StochasticProcess.collect_obs", "src/var_bayes/simulation.py: Simulation.setup"]}
{"id": "C124", "title": "setup() accepts exactly the documented configurations", "statement": "setup(params) returns without an exception exactly if params has all the documented entries, the model is one of the four names up to letter case, the system noise is positive (a number in one dimension, as many positive numbers as components or a positive definite matrix for the Lorenz models), the drift parameters are numbers in the right number, the time step is positive and the window not reversed, the observation density gives at least one observation and at most one per time step, the operator is absent or a list of as many truth values as there are components, the observation noise and prior have fitting shapes, and the seed is null or a natural number; the integrator name and the signs of the variances are checked too. For everything else it raises.", "quantifier": "all JSON values given as parameters, all states of the Simulation object and of the random number generator", "why_tests_cant": "it is an equivalence over all JSON values; a test checks single dictionaries, and what is wrongly accepted or wrongly rejected lies outside of them", "anchors": ["src/var_bayes/simulation.py: Simulation.setup, Simulation._stochastic_model", "src/dynamics/stochastic_process.py: StochasticProcess.__init__, StochasticProcess.collect_obs", "src/dynamics/double_well.py: DoubleWell.__init__, DoubleWell.make_trajectory", "src/dynamics/ornstein_uhlenbeck.py: OrnsteinUhlenbeck.__init__", "src/dynamics/lorenz_63.py: Lorenz63.__init__", "src/dynamics/lorenz_96.py: Lorenz96.__init__"]}
{"id": "C125", "title": "The optimizer makes progress", "statement": "Unless the gradient at the starting parameters is numerically zero, the optimizer, and with it run(), does not return the parameters it started from but parameters with a smaller value of the objective.", "quantifier": "all objectives with their gradient functions, starting points and iteration limits of at least 101; all valid configurations, random streams and histories for run()", "why_tests_cant": "whether a step is accepted is decided in up to 500 iterations with changing step lengths; for run() the gradient is only an approximate one (C96), and where it is not a descent direction no test of a single run shows it", "anchors": ["src/numerics/optim_scg.py: SCG.__call__", "src/var_bayes/simulation.py: Simulation.run", "src/var_bayes/variational.py: VarGP.free_energy, VarGP.gradient", "src/dynamics/double_well.py: DoubleWell.energy"]}
{"id": "C126", "title": "The command line decides what is run", "statement": "vgpa_main.py runs the simulation with the parameter file and data file given by --params and --data: in any order, as the next word or after =, with names that may be cut short, and the last value counts if an option is given twice. File names that do not begin with a dash are passed on unchanged. On any other command line it reads and writes no file and exits, with status 1 without arguments, 0 only if help was asked for, and 2 otherwise. Unless help is asked for, status 0 means that the session was completed and its results saved.", "quantifier": "all lists of words as command line, all files and classes", "why_tests_cant": "the set of command lines is infinite, and what a word means depends on the words around it; a test checks a few spellings", "anchors": ["vgpa_main.py: __main__, main"]}
{"id": "C127", "title": "Symmetric problems have symmetric results", "statement": "If x -> -x is applied to the observations, initial mean and prior mean of a double well or Ornstein-Uhlenbeck problem, or (x, y, z) -> (-x, -y, z) to the observations and initial moments, prior, noises and operator of a Lorenz-63 problem, then the starting parameters, the free energy and gradient at transformed parameters, and the parameters and statistics that the optimizer returns, are those of the original problem, transformed. If one raises, so does the other, with the same error.", "quantifier": "all problems, integrators, observation sets, parameters, iteration limits and interpolation methods with the symmetry", "why_tests_cant": "it relates two runs of unbounded length for all inputs", "anchors": ["src/var_bayes/variational.py: VarGP.free_energy, VarGP.gradient, VarGP.initialization", "src/dynamics/double_well.py: DoubleWell.energy", "src/dynamics/ornstein_uhlenbeck.py: OrnsteinUhlenbeck.energy", "src/dynamics/lorenz_63.py: Lorenz63.energy", "src/var_bayes/gaussian_like.py: GaussianLikelihood.__call__", "src/var_bayes/prior_kl0.py: PriorKL0.__call__", "src/numerics/optim_scg.py: SCG.__call__"]}
{"id": "C128", "title": "The numbering of the components of Lorenz-96 does not matter", "statement": "If the components of a Lorenz-96 problem are renumbered cyclically, in the initial moments, observations, noise and parameters, then drift, averages, energy, likelihood and moments are those of the original problem, renumbered.", "quantifier": "all dimensions from four on, states, moments, parameters, observations and integrators", "why_tests_cant": "it relates two evaluations for all inputs in all dimensions; which entries are mixed up depends on the dimension and on all components", "anchors": ["src/dynamics/lorenz_96.py: l96, Lorenz96.energy", "src/var_bayes/gaussian_like.py: GaussianLikelihood.__call__", "src/numerics/ode_solver.py: OdeSolver.fun_mt, OdeSolver.fun_st"]}
{"id": "C129", "title": "The free energy is bounded below", "statement": "For fixed observations, noises, prior and initial moments there is a number that free_energy(x) never falls below, so that minimising it is a well-posed problem. The number is the divergence of the initial moments from the prior plus half the logarithm of the determinant of 2 pi times the observation noise, once per observation.", "quantifier": "all problems with positive noises, integrators, observation sets and parameter vectors", "why_tests_cant": "it is a bound over all parameter vectors of an unbounded set; the optimizer goes wherever the values are smallest, tests see single vectors", "anchors": ["src/var_bayes/variational.py: VarGP.free_energy", "src/dynamics/double_well.py: DoubleWell.energy", "src/dynamics/ornstein_uhlenbeck.py: OrnsteinUhlenbeck.energy", "src/dynamics/lorenz_63.py: Lorenz63.energy", "src/var_bayes/gaussian_like.py: GaussianLikelihood.__call__", "src/var_bayes/prior_kl0.py: PriorKL0.__call__", "src/var_bayes/fwd_ode.py: FwdOde.__call__"]}
{"id": "C130", "title": "The order in which the observations are given does not matter", "statement": "If the same observations, values with their times, are handed over in another order, then the observation energy, the free energy, its gradient, the stored statistics and the starting parameters are the same as before.", "quantifier": "all processes, integrators, sets of observations at different times, permutations of them and parameter vectors", "why_tests_cant": "it relates two evaluations for every permutation of every set of observations; a test tries one order", "anchors": ["src/var_bayes/variational.py: VarGP.free_energy, VarGP.gradient, VarGP.initialization, VarGP.arg_out", "src/numerics/utilities.py: my_trapz", "src/var_bayes/gaussian_like.py: GaussianLikelihood.__call__, gradients", "src/dynamics/ornstein_uhlenbeck.py: OrnsteinUhlenbeck.energy"]}
{"id": "C131", "title": "The optimizer keeps to its own arrays", "statement": "A call of the optimizer overwrites no array that existed before it: not the starting point, not the arrays of the variational object. The point it returns is a new array. With objective and gradient functions that overwrite no existing array either, its result, statistics and the state of the functions are those of a program in which arrays are values. Functions that overwrite whatever they are called with do not get hold of the starting point.", "quantifier": "all objectives and gradient functions, starting points, memories with arbitrarily overlapping arrays, arithmetics and iteration limits", "why_tests_cant": "what is shared depends on the path through up to 500 iterations and on the memory that the caller has laid out; tests look at values", "anchors": ["src/numerics/optim_scg.py: SCG.__call__", "src/var_bayes/variational.py: VarGP.free_energy, VarGP.gradient", "src/var_bayes/simulation.py: Simulation.run"]}
{"id": "C132", "title": "The optimizer's result depends only on the values its functions return", "statement": "If two gradient functions return arrays with the same contents at every call, the optimizer returns the same result with both, whether they make a new array each time, return an old one, or write into one array of their own.", "quantifier": "all pairs of objectives and gradient functions that return the same values, starting points and memories", "why_tests_cant": "it relates two programs in all memories; with one array that is written again and again everything that is printed along the way looks right", "anchors": ["src/numerics/optim_scg.py: SCG.__call__, SCG.__init__"]}
{"id": "C133", "title": "Observation values and times of different number are rejected", "statement": "A likelihood that is given a number of observation values and a different number of observation times raises an exception when its energy or its gradients are asked for; it does not return numbers.", "quantifier": "all dimensions, numbers of values and of times, values, times within the window, operators, noise variances, means and covariances", "why_tests_cant": "which numbers are rejected and which are silently stretched or cut depends on the pair of counts and on the dimension", "anchors": ["src/var_bayes/gaussian_like.py: gauss_1d, gauss_nd, gradients_1d, gradients_nd"]}
{"id": "C134", "title": "The origin of time does not matter", "statement": "If t0 and tf of the time window are both moved by the same amount, setup and run do the same as before: the same path, the same observations at the same indices, the same starting parameters, the same result, the same output, or the same exception. Only the time window of the process is moved. (In exact arithmetic, and for an interpolation that moves along with its points, as splines do.)", "quantifier": "all parameter files, all four processes, integrators, seeds, data sets, amounts and states of the simulation object", "why_tests_cant": "it relates two runs for all windows and amounts; a use of absolute time anywhere shows only for windows that do not start at zero", "anchors": ["src/var_bayes/simulation.py: Simulation.setup, Simulation.run", "src/dynamics/stochastic_process.py: StochasticProcess.collect_obs, StochasticProcess.time_step", "src/dynamics/double_well.py: DoubleWell.make_trajectory", "src/dynamics/ornstein_uhlenbeck.py: OrnsteinUhlenbeck.make_trajectory", "src/dynamics/lorenz_63.py: Lorenz63.make_trajectory", "src/dynamics/lorenz_96.py: Lorenz96.make_trajectory", "src/var_bayes/variational.py: VarGP.initialization"]}
{"id": "C135", "title": "Double precision: values stay proper", "statement": "In double precision, with rounding, overflow, underflow and NaN: if the objective at the starting point is neither NaN nor plus infinity, then no value that the optimizer records and not the value it returns is NaN or plus infinity, whatever the objective and its gradient return later. If the gradient at the starting point has a NaN, every trial point is rejected and the starting point is returned.", "quantifier": "all objectives and gradient functions with values in double precision, starting points, dimensions, orders of summation in the dot product and iteration limits", "why_tests_cant": "which comparison sees a NaN or an infinity, and at which step, depends on the values of the functions at all points visited", "anchors": ["src/numerics/optim_scg.py: SCG.__call__"]}
{"id": "C136", "title": "A NaN is reported", "statement": "If the minimisation ends with the value NaN, the caller learns of it by an exception.", "quantifier": "all objectives and gradient functions with values in double precision, starting points and iteration limits", "why_tests_cant": "a test would have to find the inputs that lead to NaN", "anchors": ["src/numerics/optim_scg.py: SCG.__call__"]}
{"id": "C137", "title": "Descent in double precision", "statement": "In double precision too, no accepted step increases the objective: each recorded value is at most the one before, and the returned value is at most the value at the starting point.", "quantifier": "all objectives and gradient functions with values in double precision, starting points, dimensions, orders of summation and iteration limits", "why_tests_cant": "a quotient that is rounded to zero changes the decision; such values are not found by trying", "anchors": ["src/numerics/optim_scg.py: SCG.__call__"]}
{"id": "C138", "title": "Only positive finite numbers are accepted as noise, rate and time step", "statement": "The noise of a double well or an Ornstein-Uhlenbeck process, the rate of the latter, and the time step of an integrator are rejected with ValueError, leaving the object as it was, unless they are positive and finite; after any sequence of assignments the stored inverse is the inverse of the noise.", "quantifier": "all values in double precision, NaN and infinities included, and all sequences of assignments", "why_tests_cant": "comparisons with NaN behave unlike all others; the sequences of assignments are unbounded", "anchors": ["src/dynamics/double_well.py: DoubleWell.__init__, DoubleWell.sigma, DoubleWell.theta", "src/dynamics/ornstein_uhlenbeck.py: OrnsteinUhlenbeck.__init__, OrnsteinUhlenbeck.sigma, OrnsteinUhlenbeck.theta", "src/numerics/ode_solver.py: OdeSolver.__init__", "src/var_bayes/fwd_ode.py: FwdOde.__init__", "src/var_bayes/bwd_ode.py: BwdOde.__init__"]}
{"id": "C139", "title": "Finite differences in double precision", "statement": "Each entry that finite_diff returns is close to the derivative of the function: the difference is at most a small multiple of the bounds of the first and third derivative plus a multiple of the error of the function values, with rounding, overflow and underflow taken into account. So check_gradient tells right gradients from wrong ones.", "quantifier": "all functions with three bounded derivatives along the coordinate lines, evaluated with any error, and all arguments in double precision, of any size and dimension", "why_tests_cant": "the rounding errors depend on the argument; tests use arguments of size one, where nothing happens", "anchors": ["src/numerics/utilities.py: finite_diff", "src/numerics/optim_scg.py: SCG.check_gradient_function"]}
{"id": "C140", "title": "The time window in double precision", "statement": "make_trajectory(t0, tf, dt), with tf a whole number N of steps after t0 as the user writes them (decimal numbers), gives N + 1 times: entry i is t0 + i dt up to rounding, the last is tf, and time_step is dt up to rounding.", "quantifier": "all decimal or binary start times, end times and time steps with tf - t0 = N dt, for every N", "why_tests_cant": "whether the quotient (tf + dt - t0) / dt is rounded up or down depends on the digits of the three numbers", "anchors": ["src/dynamics/double_well.py: DoubleWell.make_trajectory", "src/dynamics/ornstein_uhlenbeck.py: OrnsteinUhlenbeck.make_trajectory", "src/dynamics/lorenz_63.py: Lorenz63.make_trajectory", "src/dynamics/lorenz_96.py: Lorenz96.make_trajectory", "src/dynamics/stochastic_process.py: StochasticProcess.time_step"]}
{"id": "C141", "title": "The observation indices in double precision", "statement": "collect_obs on a window that make_trajectory built in double precision: every density up to one observation per step is accepted and every higher one is rejected with ValueError, the number M of observations is the integer part of density times length of the window, the indices are the integer parts of (i+1) n / (M+1) with n the number of times, strictly increasing and inside the window, and the same window at a later time gives the same indices.", "quantifier": "all decimal start times, end times and time steps with tf - t0 = N dt, and all observation densities in double precision", "why_tests_cant": "each of int(1.0/dt), the product of density and length, and the spacing of linspace is rounded, then cut to an integer; which cases are off by one depends on all digits", "anchors": ["src/dynamics/stochastic_process.py: StochasticProcess.collect_obs", "src/dynamics/double_well.py: DoubleWell.make_trajectory"]}
{"id": "C142", "title": "The units of measurement do not matter", "statement": "Writing a one-dimensional problem in other units, with all states multiplied by c and all times divided by r (so means and observations are multiplied by c, variances by c^2, rates by r, the system noise by c^2 r), changes the free energy at the correspondingly rewritten parameters by a constant only, which depends on c and on the number of observations; the gradient, the stored moments, drift moments and multipliers are the old ones in the new units; the best parameters are the old ones in the new units; exceptions are the same. This holds for the Ornstein-Uhlenbeck process with every c and r, and for the double well with r = c^2, with every integrator.", "quantifier": "all c, r > 0, all Ornstein-Uhlenbeck problems and double wells, priors, observations, parameters, integrators", "why_tests_cant": "a wrong power, a rate used for a variance, or a missing noise factor shows only when the units change; a test with one fixed set of units agrees with a formula that is wrong in its dimensions", "anchors": ["src/var_bayes/variational.py: VarGP.free_energy, VarGP.gradient", "src/dynamics/ornstein_uhlenbeck.py: OrnsteinUhlenbeck.energy", "src/dynamics/double_well.py: DoubleWell.energy", "src/var_bayes/gaussian_like.py: gauss_1d, gradients_1d", "src/var_bayes/prior_kl0.py: gauss_1d", "src/numerics/runge_kutta2.py: RungeKutta2.solve_fwd"]}
{"id": "C143", "title": "A number that is not finite is never hidden", "statement": "In one dimension, when free_energy returns a finite number, then every number that it was computed from is finite (the variational parameters, the observations, their noise, the prior, the initial moments, the drift parameter and the noise of the process, the two time steps), and so are all means and variances that it stores. When one of these is NaN, it returns NaN. So a finite value reported by the optimizer means finite parameters and finite data, and with NaN among the data a run that returns gives back the start point and NaN.", "quantifier": "all values in double precision, NaN and infinities included, of all parameters and data, both one-dimensional processes, all integrators, all numbers of grid points from two on, all lists of observation indices; every order in which numpy adds up", "why_tests_cant": "one bad value among many must reach the result through every formula, integrator and position of the observations; a maximum, a skipped interval or a masked sum would lose it only for some positions", "anchors": ["src/var_bayes/variational.py: VarGP.free_energy", "src/dynamics/ornstein_uhlenbeck.py: OrnsteinUhlenbeck.energy", "src/dynamics/double_well.py: DoubleWell.energy", "src/var_bayes/gaussian_like.py: gauss_1d", "src/var_bayes/prior_kl0.py: gauss_1d", "src/numerics/utilities.py: my_trapz", "src/numerics/euler.py: Euler.solve_fwd", "src/numerics/heun.py: Heun.solve_fwd", "src/numerics/runge_kutta2.py: RungeKutta2.solve_fwd", "src/numerics/runge_kutta4.py: RungeKutta4.solve_fwd", "src/numerics/optim_scg.py: SCG.__call__"]}
{"id": "C144", "title": "The optimisation starts on the cubic spline through the observations", "statement": "VarGP.initialization never fails in the interpolation for observations strictly inside the window, and the curve it starts from is the not-a-knot cubic spline: it passes through every observation and, at both ends of the window, through the first and the last one again; it is twice continuously differentiable, cubic between neighbouring knots, and the same cubic on the first two and on the last two intervals (a parabola with one observation). There is exactly one such curve. It follows affine changes of the observations and shifts of time, and it reproduces cubic data.", "quantifier": "all observation times and values, any number of observations, one and several dimensions", "why_tests_cant": "the spline solves a linear system whose size is the number of observations; that it is never singular and that its solution is smooth at every knot is not visible on samples", "anchors": ["src/var_bayes/variational.py: VarGP.initialization"]}
{"id": "C145", "title": "The starting offsets stay in the range of the observations", "statement": "In one dimension, the offsets b that VarGP.initialization returns lie between the smallest and the largest observation.", "quantifier": "all windows, observation times and values", "why_tests_cant": "a spline overshoots between knots, by an amount that depends on all values and distances", "anchors": ["src/var_bayes/variational.py: VarGP.initialization"]}
{"id": "C146", "title": "Rounding errors of the free energy", "statement": "In one dimension, with Euler, Heun or Runge-Kutta 4: if VarGP.free_energy computed in double precision returns a finite number, that number differs from the free energy with exact arithmetic, for the same inputs, by at most (217 n + m + 30) / 2^52 times the size of the terms that it adds up, where n is the number of grid points and m the number of observations. The stored means and variances have errors of at most 36 n / 2^52 times their sizes. The size of a result is what the same operations give with absolute values and sums in the place of differences.", "quantifier": "all finite inputs in double precision, both one-dimensional processes, all numbers of points and observations up to a total of 2^53 operations, every order in which numpy adds up, every library whose powers and logarithms are accurate to one unit in the last place", "why_tests_cant": "an error bound is a statement about the worst of 2^64 values of every input; a reference computation shows the error for one of them only", "anchors": ["src/var_bayes/variational.py: VarGP.free_energy", "src/dynamics/ornstein_uhlenbeck.py: OrnsteinUhlenbeck.energy", "src/dynamics/double_well.py: DoubleWell.energy", "src/var_bayes/gaussian_like.py: gauss_1d", "src/var_bayes/prior_kl0.py: gauss_1d", "src/numerics/utilities.py: my_trapz", "src/numerics/euler.py: Euler.solve_fwd", "src/numerics/heun.py: Heun.solve_fwd", "src/numerics/runge_kutta4.py: RungeKutta4.solve_fwd"]}
{"id": "C147", "title": "The start of the optimisation does not depend on the units", "statement": "If times are given in another unit (the grid, the time step and the noise change accordingly), or states in another unit (the observations and the noise change accordingly), VarGP.initialization returns the same linear and offset parameters, in the other units: the linear ones are rates, the offsets states per time.", "quantifier": "all windows, observations, numbers of points and dimensions, all positive factors between the units, failures included", "why_tests_cant": "a constant in the code with a hidden unit is right for the units of the examples; only a law over all factors shows it", "anchors": ["src/var_bayes/variational.py: VarGP.initialization"]}
{"id": "C148", "title": "The gradient in double precision is the same program", "statement": "The gradient modelled for any arithmetic (used below for double precision) is, with real numbers, the gradient of all the other properties: whenever gradient(x) of a one-dimensional problem returns, both give the same derivatives and the same stored multipliers.", "quantifier": "all Ornstein-Uhlenbeck processes and double wells, observations, priors, parameters, integrators and numbers of points", "why_tests_cant": "two transcriptions of the same formulas must agree for every input; a sample does not show a swapped pair of terms that vanish on it", "anchors": ["src/var_bayes/variational.py: VarGP.gradient", "src/dynamics/ornstein_uhlenbeck.py: OrnsteinUhlenbeck.energy", "src/dynamics/double_well.py: DoubleWell.energy", "src/var_bayes/gaussian_like.py: gradients_1d", "src/numerics/euler.py: Euler.solve_bwd", "src/numerics/heun.py: Heun.solve_bwd", "src/numerics/runge_kutta2.py: RungeKutta2.solve_bwd", "src/numerics/runge_kutta4.py: RungeKutta4.solve_bwd"]}
{"id": "C149", "title": "Rounding errors of the gradient", "statement": "In one dimension, with Euler, Heun or Runge-Kutta 4 as forward integrator and any backward integrator: if VarGP.gradient computed in double precision returns, so it does with exact arithmetic, and each finite derivative differs from the exact one, for the same inputs, by at most (253 n + 34) / 2^52 times the size of the terms that are added up to get it, n the number of grid points; for the stored multipliers it is (217 n + 24) / 2^52.", "quantifier": "all finite inputs in double precision, both one-dimensional processes, all numbers of points up to a total of 2^53 operations, every library whose powers are accurate to one unit in the last place", "why_tests_cant": "an error bound is a statement about the worst of 2^64 values of every input", "anchors": ["src/var_bayes/variational.py: VarGP.gradient", "src/dynamics/ornstein_uhlenbeck.py: OrnsteinUhlenbeck.energy", "src/dynamics/double_well.py: DoubleWell.energy", "src/var_bayes/gaussian_like.py: gradients_1d", "src/numerics/euler.py: Euler.solve_bwd", "src/numerics/heun.py: Heun.solve_bwd", "src/numerics/runge_kutta2.py: RungeKutta2.solve_bwd", "src/numerics/runge_kutta4.py: RungeKutta4.solve_bwd"]}
{"id": "C150", "title": "The gradient does not hide bad numbers", "statement": "In one dimension, when all derivatives that VarGP.gradient returns are finite, then so is every number that they depend on: the parameters, the observations and the observation operator, the drift and the noise of the process, the time steps, the initial moments, and the stored multipliers. When one of these is NaN, one of the derivatives is NaN.", "quantifier": "all values in double precision, NaN and infinities included, both one-dimensional processes, all integrators, all numbers of grid points from two on, all lists of different observation indices", "why_tests_cant": "the bad value must travel through the backward sweep from every position to a derivative; at one position out of many it may be dropped", "anchors": ["src/var_bayes/variational.py: VarGP.gradient", "src/var_bayes/gaussian_like.py: gradients_1d", "src/numerics/euler.py: Euler.solve_bwd", "src/numerics/heun.py: Heun.solve_bwd", "src/numerics/runge_kutta2.py: RungeKutta2.solve_bwd", "src/numerics/runge_kutta4.py: RungeKutta4.solve_bwd"]}
{"id": "C151", "title": "An optimisation in double precision does not make the exact free energy worse", "statement": "In one dimension, with Euler, Heun or Runge-Kutta 4: when the optimizer runs in double precision on the free energy in double precision and the values at the start and at the end are finite, the reported parameters are finite and the free energy computed with exact arithmetic at them is at most the exact one at the start, plus max_it / 2^52, plus (217 n + m + 30) / 2^52 times the sizes of the terms of the two; n grid points, m observations. The gradient function may be anything.", "quantifier": "all finite starts, data and parameters in double precision, both one-dimensional processes, all gradient functions, iteration limits, orders of summation and libraries accurate to one unit in the last place, as long as no product of a step length and a slope overflows", "why_tests_cant": "the optimizer compares rounded values; that no wrong comparison lets the exact value rise holds only if the errors of every evaluation and decision are bounded at once", "anchors": ["src/numerics/optim_scg.py: SCG.__call__", "src/var_bayes/variational.py: VarGP.free_energy", "src/var_bayes/simulation.py: Simulation.run"]}
{"id": "C152", "title": "The gradient check and the arrays of others", "statement": "finite_diff(fun, x) and SCG.check_gradient_function(x) change no array that existed before the call, x included, even if the functions overwrite the arrays they get, keep them and overwrite them later (arrays that the functions keep for themselves are their own business); finite_diff returns a new array; values and printed lines are those of the same functions on values that nobody shares. With free_energy and gradient of a VarGP no array changes at all.", "quantifier": "all memories and overlaps of arrays, all points and dimensions, all pairs of functions, failures included", "why_tests_cant": "whether two names share memory shows only for the one function that overwrites what it gets; the perturbation vector is one array that is switched on and off, and any of the function's calls could spoil it", "anchors": ["src/numerics/utilities.py: finite_diff", "src/numerics/optim_scg.py: SCG.check_gradient_function", "src/var_bayes/variational.py: VarGP.free_energy, VarGP.gradient"]}
{"id": "C153", "title": "The start of the optimisation and the arrays of others", "statement": "VarGP.initialization() changes no array that existed before the call, and returns its result in a new array, or raises what it raises when no two arrays share memory. When SCG(vgpa.free_energy, vgpa.gradient)(x0) follows with that x0, the start is still in x0 afterwards, the result is in another array, and every array that existed before both calls is as it was.", "quantifier": "all memories and overlaps of the arrays of the object, all dimensions, grids, observations and interpolations, all optimizer settings, failures included", "why_tests_cant": "initialization fills its arrays entry by entry and reads back what it has just written through a view; whether a view reaches an array of the caller depends on how the arrays were made, which a test fixes", "anchors": ["src/var_bayes/variational.py: VarGP.initialization, VarGP.free_energy, VarGP.gradient", "src/numerics/optim_scg.py: SCG.__call__", "src/var_bayes/simulation.py: Simulation.run"]}
{"id": "C154", "title": "What the optimizer prints", "statement": "SCG(f, df, options)(x0) returns the same, leaves the same statistics and treats f and df in the same way with the option display as without. With display it prints one line for every tenth completed iteration, beginning with the first, with the values that statistics then hold for that iteration in fx and dfx; without it, none. The warning that the maximum number of iterations has been reached comes last, with or without display, exactly when the call returns after the last iteration without having stopped by itself: in that case all iterations have their entries, and MaxIt is as before the call; otherwise the call raises, or MaxIt is the number of an iteration of this call.", "quantifier": "all objectives and gradients, failures and shared state included, all starts, tolerances, iteration limits, statistics left by earlier calls, and all arithmetics, floating point included", "why_tests_cant": "which of the four exits a call takes, and when, depends on the function", "anchors": ["src/numerics/optim_scg.py: SCG.__call__, SCG.statistics"]}
{"id": "C155", "title": "A run uses the parameters that setup() was given", "statement": "After setup(params) has succeeded, run() reports and computes what it would have computed with the parameters as they were at the time of setup(), whatever the caller does to params and to the dictionaries in it between the two calls, for instance to set up a second simulation.", "quantifier": "all process classes and their failures, all parameter dictionaries, data, earlier uses of the simulation, and all changes of the caller's objects between the two calls", "why_tests_cant": "which of the caller's objects a run looks at again shows only when exactly those are changed between the calls", "anchors": ["src/var_bayes/simulation.py: Simulation.setup, Simulation.run"]}
{"id": "C156", "title": "run() and save() can be repeated", "statement": "After setup(), run() may be called again and results may be saved in between, in any order and any number, also when some of these calls raise: every call of run() has the same outcome, every successful one leaves the same entries in the output, and the files saved after them load with the same entries.", "quantifier": "all simulations after any history of setup, run and save calls, all further sequences of run and save calls, files that can and cannot be opened, whatever the random generator and the operating system provide", "why_tests_cant": "the sequences of calls are unbounded, and results of an earlier call stay in the object", "anchors": ["src/var_bayes/simulation.py: Simulation.run, Simulation.save, Simulation.load"]}
{"id": "C157", "title": "The observation and prior terms of one-dimensional data do not depend on how the data is written", "statement": "For a state with one component the observation energy, the prior term and their gradients are the same whether means, variances, observations, noise, operator and prior are given as numbers or as arrays with one entry.", "quantifier": "all numbers of grid points and observations, observation times, operators, means, positive variances, noises and priors", "why_tests_cant": "the two forms are separate code, and they agree on many inputs: for instance for variances that are one or the same everywhere", "anchors": ["src/var_bayes/gaussian_like.py: gauss_1d, gauss_nd, gradients_1d, gradients_nd", "src/var_bayes/prior_kl0.py: gauss_1d, gauss_nd, gradients_1d, gradients_nd"]}
{"id": "C158", "title": "The process may be changed between evaluations", "statement": "After a VarGP object has been built on a process with a trajectory, the noise and the drift parameters of the process may be assigned and new trajectories made over the same times, any number of times and with evaluations in between: initialization(), free_energy(x) and gradient(x, eval_fun=True) then return what a VarGP object built anew on the changed process would return, and so does gradient(x) after free_energy(x). Without an evaluation gradient(x) keeps to the last evaluation: it is not affected by assignments to the drift parameters or new trajectories.", "quantifier": "all four process classes, all random generators, integrators, likelihoods and priors, all sequences of assignments (accepted or rejected), trajectories and evaluations, all parameters x", "why_tests_cant": "the sequences of calls are unbounded, and a value copied too early is noticed only if exactly that value is changed later", "anchors": ["src/var_bayes/variational.py: VarGP.__init__, VarGP.free_energy, VarGP.gradient, VarGP.initialization", "src/dynamics/double_well.py: DoubleWell.sigma, DoubleWell.theta", "src/dynamics/ornstein_uhlenbeck.py: OrnsteinUhlenbeck.sigma, OrnsteinUhlenbeck.theta", "src/dynamics/lorenz_63.py: Lorenz63.sigma, Lorenz63.theta", "src/dynamics/lorenz_96.py: Lorenz96.sigma, Lorenz96.theta"]}
