# Formal model of vrettasm/VGPA in Lean 4

The model lives in `lean/Verif/`. It follows the Python sources in `/repo` function by function.
The code was read as text only. Nothing was run.

## 1. Layout

| directory | content |
|---|---|
| `Verif/Model/*.lean` | the model: one definition per Python function, each with a comment citing file and lines |
| `Verif/Spec/*.lean`  | small specifications, written without reference to the model (textbook integrator steps, integrals against normal laws, Kullback-Leibler integrals, abstract histories) |
| `Verif/Lemmas/*.lean` | helper lemmas (never property statements) |
| `Verif/Props/*.lean`  | the property theorems, named `Cnn_...`, each with an `example` showing that its hypotheses can be met |

A theorem named `..._partial` proves part of its property. A theorem named `..._violated` proves that
the property, as a user would expect it, is false of the code, with a concrete witness.
Section 5 lists all such disagreements.

## 2. Modelling conventions

* **Errors are values.** A function that may raise has result type `Py α = Except PyErr α`. Each Python
  exception class used by the code has a constructor in `PyErr`.
* **Arrays.** A 1-D array (or the first axis of an n-D array) is a `List`. Indexing past the end is an
  `IndexError` value. Fixed-size inner axes (state dimension `d`) are functions on `Fin d` and Mathlib matrices, so
  mismatches of inner axes are excluded by typing. Where the inner shape decides the behaviour (noise arguments,
  masks) it is an explicit inductive type.
* **Loops over preallocated buffers** are folds that read and write the buffer by index.
* **Objects** are structures; methods return the new object; setters that raise return the object as Python
  leaves it.
* **Arithmetic** is exact real arithmetic, except for the optimiser and for C115, C116. The integrators are modelled a second
  time in rounded arithmetic (`Model/Rounded`, operation by operation). The SCG optimiser is modelled over an abstract
  arithmetic (no algebraic laws assumed), so its structural theorems also hold for IEEE floats with NaN. Its
  order-related theorems are about the real instance.
* **Randomness.** A generator is an abstract state machine; all theorems quantify over it.

## 3. Trusted base

* Lean 4.33.0's kernel and the three standard axioms `propext`, `Classical.choice`, `Quot.sound`. No axiom is added,
  no `sorry`, no `native_decide`, no `bv_decide`. `AXIOMS.txt` lists the axioms of every theorem of `MANIFEST.json`, as
  printed by `#print axioms`.
* Mathlib's definitions used in statements: `gaussianReal`, `multivariateGaussian`, integrals, `HasDerivAt`,
  `Matrix.PosDef`, `Matrix.det`, `⁻¹`, `Real.sqrt`, `Real.log`, `Finset.sort`.
* The reading of the Python code: the cited lines against the definitions.
* The reading of library calls: numpy indexing, slicing, broadcasting, `arange`, `linspace(dtype=int)`, `roll`,
  `take`, `unique`; LAPACK Cholesky (lower triangle only in numpy, upper factor in scipy), `solve`, `inv`, `eigvals`;
  `scipy.integrate.trapezoid`; IEEE 754 binary64 with rounding to nearest, ties to even, as `Model/Ieee` has it (`Lemmas/IeeeSpec` proves that its operations give the binary64 number nearest to the exact result, of two the one with even significand, infinity from 2^1024 - 2^970 on, and NaN exactly for the invalid operations; a dot product may be summed in any order); h5py as a key/array store; `json.load`; `str.strip`, `str.upper`.

### What is modelled

| file in `/repo` | model | remarks |
|---|---|---|
| `src/numerics/ode_solver.py`, `euler.py`, `heun.py`, `runge_kutta2.py`, `runge_kutta4.py` | `Model/Ode`, `Model/Rounded` | complete |
| `src/var_bayes/fwd_ode.py`, `bwd_ode.py` | `Model/Ode` | complete, ASCII letter case |
| `src/numerics/utilities.py` | `Model/Numerics`, `Model/LinAlg`, `Model/UT`, `Model/IeeeDiff` | complete; `finite_diff` also in binary64; negative observation indices and numba are left out |
| `src/numerics/optim_scg.py` | `Model/Scg`, `Model/GradCheck`; `Model/ScgPrint`: `__call__` once more with the lines it prints; `Model/HeapScg`, `Model/HeapCheck`: `__call__` and `check_gradient_function` (with `finite_diff`) once more with arrays in memory; `Model/Ieee`: binary64 as arithmetic for `Model/Scg` | complete; of the printed text the numbers before they are rounded |
| `src/dynamics/stochastic_process.py` | `Model/Process`; `Model/IeeeGrid`: `time_step` and the indices of `collect_obs` once more in binary64 | complete |
| `src/dynamics/double_well.py`, `ornstein_uhlenbeck.py` | `Model/DoubleWell`; `Model/IeeeParams`: the checks of the parameters once more in binary64; `Model/IeeeGrid`: the time window (`np.arange`) once more in binary64 | complete |
| `src/dynamics/lorenz_63.py` | `Model/Lorenz63` | complete (generated by a script from the Python expressions) |
| `src/dynamics/lorenz_96.py` | `Model/Lorenz96` | complete |
| `src/var_bayes/gaussian_moments.py` | `Model/GaussianMoments` | complete |
| `src/var_bayes/likelihood.py`, `gaussian_like.py`, `prior_kl0.py` | `Model/Likelihood` | complete for observations of all components; trailing axes of length one left out |
| `src/var_bayes/variational.py` | `Model/VarGP`, `Model/Lorenz96` (`grad_Esde_dm_ds`); `Model/Heap`, `Model/HeapVgp`, `Model/HeapInit`: once more with arrays as buffers and views, and the integrators too | complete; the interpolation is a parameter of `initialization`, and `Model/Spline` is SciPy's cubic spline for it |
| `src/var_bayes/simulation.py` | `Model/Simulation`, `Model/Disk` (`save` step by step), `Model/SharedParams` (`setup` and `run` once more with `params` as objects that the caller keeps) | complete, over an interface `Classes` of the classes it calls |
| `vgpa_main.py` | `Model/Main`, `Model/Args` | complete; argparse is that of CPython 3.11.10, for the two options of the program (`Model/Args` was compared with it on 3000 random command lines) |
| the one-dimensional free energy (`variational.py:141-200` and all it calls) | `Model/IeeeEnergy`: once more for any arithmetic, double precision among them (with real numbers it equals `Model/VarGP`, proved) | the value and the stored moments |
| the one-dimensional gradient (`variational.py:202-289` and all it calls) | `Model/IeeeGrad`: once more for any arithmetic (with real numbers it equals `Model/VarGP`, C148) | the derivatives and the stored multipliers; without the derivatives for the parameters of the process and the noise, on which no result depends |
| all classes together | `Model/Api`, `Model/Pipeline` | the four processes behind one interface; the run of a simulation with the modelled classes |
| `VarGP` and the process it refers to | `Model/LiveVgp` | assignments to the process and new trajectories after the construction |

Not modelled: floating-point rounding (except in the integrators, C115 and C116, in the optimizer, C135 to C137, in `finite_diff`, C139, in the time window and the observation indices, C140 and C141, and in the one-dimensional free energy and its gradient, C143, C146, C149 and C150), overflow, underflow and NaN (except in
C135 to C141, in C143, C146, C149 and C150 and in the theorems about the optimizer that hold for every arithmetic), the text of what is printed, except by the optimizer (C74, C154), timing, `__str__`, numba compilation, rounding in `CubicSpline` (its algorithm is modelled over the reals, from SciPy's source, which is not part of `/repo`), the statistical quality of the random generator, HDF5's byte format (what a kill leaves of a file that is being written is assumed, see `Spec.AfterCrash`), non-ASCII letter case,
mutation of arrays by a caller who keeps a reference to them (except in C123, C131, C132, C152 and C153; elsewhere arrays are values), and of dictionaries (except in C155).

## 4. Plan per property

| id | model | proof |
|---|---|---|
| C01 C02 C03 | `Model/GaussianMoments`: order table, `dm`, `ds`, constructor check | `Props/Moments`: integral of `x^n` under `gaussianReal` by a moment recursion; `HasDerivAt` of the moment function; cases on orders |
| C04 C05 | `Model/Numerics.myTrapz`: fold over the observation indices with slices | `Props/Trapz`: trapezoid of a list splits at any index; induction over the index list |
| C06 C07 | `finiteDiff`: loop with the perturbation buffer | `Props/FiniteDiff`: invariant "buffer is zero before each turn"; algebra for quadratics; Taylor bound |
| C08 | `safeLog` | monotonicity of `min`, `max`, `log` |
| C09 C10 C11 | `chol` as a concrete recursive algorithm reading the lower triangle | `Props/LinAlg`: induction on the size: factorisation, success iff positive definite, dependence on the lower triangle only |
| C12 C13 C14 | `utApprox` with sigma points, weights, fallback, covariance output | `Props/UT`: finite sums; matrix algebra; concrete witnesses for the two defects |
| C15 | `FwdOde`, `BwdOde` constructors | `Props/OdeBasic`: case analysis on the lower-cased name |
| C16 C17 C18 | the eight sweeps, over abstract right-hand sides, as folds over buffers | `Props/OdeBasic`: one lemma per sweep shape; textbook steps in `Spec/Ode` |
| C19 C20 C21 C23 | same | `Props/OdeLaws`: induction along the sweep using C17/C18 |
| C22 | 1-D and n-D right-hand sides | simulation by the 1x1 embedding |
| C24 C25 | same | `Props/OdeLimits`: closed form by induction; limit through `(1 + x/n + o(1/n))^n -> exp x` |
| C26 C27 C28 | same | `Props/OdeAdjoint`: summation by parts; locality; positivity of the stage polynomials |
| C29 C31 C36 | object state machines with setters | `Props/History`, `Props/LorenzNoise`: invariant over operation lists; witness for C31 |
| C30 | constructors with explicit noise shapes | `Props/LorenzNoise`: eigenvalue test against positive definiteness |
| C32 C33 C34 | `arange`, Euler-Maruyama loops, noise gain | `Props/Traj`, `Props/LorenzNoise`: counting lemma for `ceil`; recursion; `U U' = Sigma dt` |
| C35 | generator as abstract machine, seeding | `Props/History`: congruence; witness seed 0 |
| C37 C38 C39 | `collectObs` | `Props/Obs`: integer floor arithmetic |
| C40-C43 | `energy` of OU and double well | `Props/Energy1`: moments from C01; `ring`; `HasDerivAt` |
| C44-C47 C83 | `Lorenz63` energy terms | `Props/Lorenz63`, `Props/LorenzGrad`: multivariate normal moments up to order 4 (`Lemmas/GaussMv`, `Lemmas/Stein`); `ring` |
| C48 C49 C50 | `Lorenz96` drift, average drift and Jacobian, batch drift | `Props/Lorenz96`: second moments; cyclic index arithmetic; witness |
| C82 | noise gradients of both Lorenz energies | `Props/LorenzGrad`: derivative of the inverse along symmetric directions |
| C51-C54 | `GaussianLikelihood` | `Props/Like1`, `Props/LikeN`: second moments; witness |
| C55-C57 | `PriorKL0` | `Props/Prior`: integral of log-density ratio; witness |
| C58-C63 | `VarGP` as a state machine over abstract component functions | `Props/VarGP*`: list arithmetic; history induction; C17 for the Euler mean |
| C64-C73 | `SCG` over abstract arithmetic and stateful oracles | `Props/Scg*`: loop invariants; the real instance for descent and scale |
| C74 | `check_gradient_function` | `Props/GradCheck`: C06 and C07 |
| C75-C79 | `Simulation` as a state machine | `Props/Simulation`, `Props/SaveLoad`: case analysis and history induction |
| C84 C85 | `Simulation` with the modelled classes (`Model/Pipeline`) | `Props/ScgMap`, `Props/VgpRun`: the optimizer on the cached objective; `Props/Pipeline`: unfolding of a successful run, uses C64, C67, C69; `Props/Stall`: a run on a three point grid that rejects all 500 trial points, so that the stored moments belong to the last of them |
| C86 | same | `Props/Shapes`: invariant "the path fits the window" over all histories; lengths of every sweep |
| C87 | `Model/Pipeline`, `Model/Simulation` | `Props/RunTotal`: each step of `setup` and `run` succeeds for a valid configuration; the optimizer never fails on total methods; with C86 the shapes |
| C88 | `Model/Main` over `Model/Pipeline` | `Props/Shipped`: C87 and the round trip of C78 for valid files and the shipped double well file; the shipped Lorenz files as counterexamples |
| C89 | `Model/Pipeline` | `Props/Repeat`: only the constructors look at the entropy; congruence over the calls of a history; seed zero as counterexample |
| C90 | `Model/Pipeline`, `Model/Simulation` | `Props/Meaning1`: the steps of `setup` in `Props/RunTotal` carry the path, the generator state and the number of normal draws used so far |
| C91 | `Model/Pipeline` | `Props/Meaning1`: the evaluation at the returned vector, split into the three energies of C40/C42, C51 and C55; partial because of the prior's constant and the double well's missing term |
| C92 | `Model/Scg` | `Spec/Scg` (the method as a recursion over real vectors, with four components per state), `Props/ScgMethod`: the locals of the loop represent a state of the method, invariant over `Reach` |
| C93 | `Model/Scg` | `Props/ScgMethod`: a corollary of C92's proof; fails, witness with one iteration on a parabola |
| C94 | `Model/Pipeline` | `Props/RunMethod`: C92 for the functions that run() passes, with C68's argument for the gradient without re-evaluation |
| C95 | `Model/Scg` | `Props/ScgMethod`: C92 for the objects that the constructor makes |
| C96 | `Model/VarGP` | `Props/GradExact`: closed forms of Euler's moments and their derivatives, summation by parts against the multipliers, so the exact difference between derivative and gradient is known; `Props/GradOrder`: discrete Gronwall bounds make the difference at most a constant times the step |
| C97 | `Model/Pipeline` | `Props/RunTotal63`: as C87, with the parameter entries of the three dimensional case (lists, rows); the noise factor exists for a positive definite matrix |
| C98 | `Model/Pipeline` | `Props/Meaning63`: as C90 |
| C99 | `Model/Pipeline` | `Props/Meaning63`: as C91, from C44, C53 and C56; partial: the three known differences (prior, observed variances, inverse noise off the diagonal) stay, and covariances have to be positive semidefinite; `Props/Meaning63Not`: by C114 three prior means on a line give the same estimate but differences that cannot all vanish |
| C100 | `Model/Main` | `Props/Shipped63`: C97 and C78 through `main` |
| C101 | `Model/Scg`, `Spec/Scg` | `Props/ScgRate`: through C92 to the written specification; invariant on the scale and the direction, a fixed decrease of the distance in each iteration |
| C102 | `Model/Pipeline` | `Props/RunTotal96`: as C98; `Simulation` gives no dimension, so the state has the default dimension 40 |
| C103 | `Model/Pipeline` | `Props/RunTotal96`: every evaluation returns or raises `LinAlgError`, and by `C66_raises_nothing_else` the optimizer raises nothing else; a configuration where the covariance of the initial parameters becomes negative |
| C104 | `Model/Pipeline` with `LikeV`, the likelihood whose operator is a vector | `Props/Masks`: `setup` as for C98; `run` fails when the likelihood is built, or, with all components, at every evaluation; `Props/MaskLike`: what the energy and the gradients are in the remaining case |
| C105 | `Model/Ode.solveFwd` for the right-hand sides of one and of `d` dimensions | `Props/OdePos`: one step of every method is the congruence by `I - dt A` plus `dt Sigma` plus terms of second order (`Lemmas/OneStep.gStep_remainder`), with norms bounded by a discrete Gronwall lemma |
| C106 | as C105 | `Props/OdeVarying`: local error of second order from `gStep_remainder` and the mean value inequality, summed by the Gronwall lemma |
| C107 | `Model/Ode.solveBwd` for the right-hand sides of one and of `d` dimensions | `Props/OdeJumps`: time reversed, so that jumps come at left ends of steps; local error by the mean value inequality for right derivatives and one-sided limits; Gronwall lemma |
| C108 | `VarGP.freeEnergy` with all four models, the Gaussian likelihood and all four solvers | `Props/EnergyLimit`, `Props/EnergyLimit63`, `Props/EnergyLimit96`: convergence of the moments (C106), convergence of the integration rule on Lipschitz integrands (`Lemmas/Integral`); for Lorenz-96 the integrand contains a Cholesky factor, which is smooth at positive definite matrices (`Lemmas/CholSmooth`), and the computed covariances stay uniformly positive definite near the curve; limits of the three other models computed, and a positive distance to the claimed value shown |
| C109 | `VarGP.gradient`, both sweeps, energies and likelihood gradients of the two one dimensional processes; `Spec.FunctionalGradient`, `Spec.GradientConverges` | existence of the multipliers by variation of constants with jumps; integration by parts with jumps, Taylor with remainder and Gronwall for the functional derivative; C106, C107 and stability of the backward sweep under perturbed series for the limit. Observations at the very end of the window are excluded (`C27_last_observation_violated`) |
| C110 | `VarGP.freeEnergy` with the Ornstein-Uhlenbeck model, Gaussian likelihood and prior; `Spec.evidence`: iterated expectation over the exact normal transition laws | `Props/Evidence`: the likelihood of the rest of the path is the exponential of a quadratic (backward recursion over the observations); comparison of derivatives between observations, Gibbs inequality for the prior, C108 for the step to the code. Holds with the missing term of C55 added, hence for initial variances up to one; a family of counterexamples above one |
| C111, C112 | `Model/Lorenz96`: `energy`, `gradEsdeDmDs`, `l96Batch`; `Model/UT`; `Spec.Unscented` characterises points and weights by what `ut_approx` does with a callable | `Props/Meaning96`: closed form of the energy; the wrong neighbours of the last column have a sum that depends on the mean, so some mean and offset make a difference; for the gradients, two energies whose difference is linear in the mean while the difference of the returned gradients vanishes |
| C113 | `Model/Scg` with exact arithmetic; `Spec.SameProblem` says what two descriptions of one problem are | `Props/ScgSym`: a relation between the worlds of two calls that every statement of the method preserves; inner products and norms do not change under signed permutations |
| C114 | `Model/Simulation`, `Model/VarGP`, `Model/Scg` | `Props/PriorShift`: `setup` with two priors gives states that differ in the two prior entries only; the prior term is a constant in the objective and does not occur in the gradient, so C113 applies |
| C115 | `Model/Rounded`: the four forward sweeps with an arbitrary rounding after each operation and arbitrary accurate inner products | `Lemmas/Rounding`, `Props/Rounding`: sizes and errors of all intermediate results are propagated through a step (`Near`); the errors of the steps are summed by a perturbed version of C106 (`affine_converges_pert`). With exact operations the sweeps are those of `Model/Ode` (`solveFwdR_exact`); binary rounding to nearest with left-to-right inner products meets the hypotheses |
| C116 | `Model/Rounded`: the four backward sweeps | as C115, with a perturbed version of C107 (`affine_converges_jumps_pert`, `solveBwdR_exact`) |
| C117 | `Model/Simulation`, `Model/Pipeline` | `Props/Reuse`: two executions of `setup` from arbitrary states raise the same exception or agree in every entry written so far (`Twin`, `Agree`); all eleven names of the output are replaced by `run` (C86). Partial: without data from the caller |
| C118 | `Model/Simulation`, `Model/Pipeline` | `Props/Reuse`: false, a rejected prior changes the reported number by the constant of C114; partial: what a failed `setup` with an unknown model leaves alone |
| C119 | `VarGP.eval`, `gradBody` with `L96.energy` | By C105 the covariances are positive definite for small steps, uniformly in the parameters; then the Cholesky factorisations and solves of the energy succeed (`l96_energy_eq`) and so do likelihood, prior and backward sweep (`vgpN_eval`). |
| C120 | `AnyVgp.argOut`, `VarGP.eval`, `Sim.run` | `Props/Stored`: decomposition of a successful evaluation, entry by entry; for `run` through C85 |
| C121 | `Sim.setup` with a random initial state of the generator (a probability space) | `Props/Law`: every source of randomness is a linear image of its own block of draws (`Lemmas/Law`: blocks of an independent family are independent; linear images of standard normal vectors); the start of the double well is a mixture; correlated Lorenz noise has the wrong covariance |
| C122 | `Model/Disk`: `save` as a sequence of states of the disk, with a plan of failures; a kill leaves an open file unreadable or with a prefix of its datasets | `Props/Crash`: induction over the loop of `save`; refinement of `Sim.save`; the file is truncated before the new results are written, so old results can be lost (counterexamples) |
| C123 | `Model/Heap`, `Model/HeapVgp`: the memory is a list of buffers, arrays are views; the loops of the integrators and of `gradient` write entry by entry; the process, likelihood and prior are objects that read buffers of others | `Props/Alias`: refinement of the value model by induction over the loops (the arrays being filled are apart from everything that is read); sessions by induction; counterexamples for what the object does not copy |
| C124 | `Model/Simulation`, `Model/Pipeline`, `Model/Process`: `setup` on arbitrary JSON values, with numpy's broadcasting of noise and prior entries | `Lemmas/Accepts`: `setup` returns iff every step does (for all classes); `Props/Accepts`: each step returns iff its entries have the shape written in `Spec.Accepted`. `C124_setup_iff` is the equivalence; `C124_accepts_violated`, `C124_rejects_violated`: the integrator name and the signs of variances are not checked, a single number as noise of a Lorenz system and one observed component at several times are rejected. Partial in one point: a list with one entry in the place of a number |
| C125 | `Model/Scg`, `Spec/Scg`, `Model/Pipeline` | `Props/Progress`: while trial points are rejected the scale grows by four, so after 100 rejections the step is short; `Props/Stall`: for one configuration the free energy is computed along the whole line of steepest descent and grows from the start |
| C126 | `Model/Args`: classification of the words of the command line, the loop over them, `__main__` | `Props/Args`: what each word is taken for, as a case distinction; induction over the command line: parsing returns values iff the line is a sequence of settings (`Spec.Settings`); with C81 the exit status |
| C127 | `Model/VarGP`, `Model/DoubleWell`, `Model/Lorenz63`, `Model/Likelihood`, `Model/Scg` | `Props/Mirror`: a relation between two `VarGP` objects that every call preserves; equivariance of the integrators and energies; induction over the iterations of the optimizer; `Props/Mirror63`: the same for the half turn of Lorenz-63, expression by expression; uniqueness of the Cholesky factor |
| C128 | `Model/Lorenz96`, `Model/Ode`, `Model/Likelihood` | `Props/Cyclic96`: drift and averages for cyclic renumbering, integrators and likelihood for every permutation; a counterexample for the energy in every dimension from four on |
| C129 | `Model/VarGP`, `Model/Ode`, `Model/DoubleWell`, `Model/OrnsteinUhlenbeck`, `Model/Likelihood` | `Props/Below`, `Props/BelowN`: the value as a closed formula of the moments; the bound for Lorenz-96, and where the stored variances are not negative for Ornstein-Uhlenbeck and Lorenz-63; parameters with values below any number otherwise |
| C130 | `Model/VarGP`, `Model/Numerics`, `Model/Likelihood`, the four processes | `Props/Order`: only `Esde` depends on the observation times, and the likelihood is a sum; for the free energy, the quadrature counts a piece of the window twice for every descent in the observation times; `initialization` raises for every other order |
| C131 | `Model/HeapScg`: the optimizer once more with its vectors as arrays in memory, objective and gradient as programs on the whole memory | `Props/AliasScg`: step-by-step simulation of the value model (`HSim`: memory only grows, related arrays have the same contents), loop by induction; for functions that overwrite things, an invariant of one array (`Keep`) |
| C132 | the same | `Props/AliasScg`: two tidy programs simulate the same value program; a gradient function that reuses its buffer, computed for every start of size at least one |
| C133 | `Model/Likelihood` with numpy's broadcasting (`bcast`) and index assignment (`fancySet`) for lists of different length | `Props/Counts`: unfolding; a single value or a single time is compared with the likelihood of equally many |
| C134 | the whole of `setup` and `run`, with the two time windows | `Props/Shift`: a relation between the two `m_data` is kept by every step of `setup`; `arange`, `time_step` and the observation indices depend on differences only; the optimizer passes along a state that differs in the time window only (`call_map`) |
| C135 | the optimizer of `Model/Scg` with `ieeeArith`: binary64 numbers with signed zeros, infinities and NaN; the dot product is a parameter | `Props/Floats`: a trial point is accepted only if the comparison quotient is `>= 0`, which a NaN and, by the signs of numerator and denominator, plus infinity cannot reach; invariant over the loop |
| C136 | as C135 | partial: the result is NaN exactly if the objective at the start is NaN, and then the starting point is returned; violated: it is returned without an exception |
| C137 | as C135 | partial: each recorded value exceeds the one before by at most 2^-52, unless step times slope overflows; from the rounding lemmas (`Lemmas/Ieee`) and a turn-by-turn relation (`Lemmas/ScgFloat`); violated: a quotient that underflows to -0.0 passes `>= 0.0`, and an uphill step is accepted |
| C138 | the constructors and setters in binary64 (`Model/IeeeParams`) | partial: exactly the positive numbers, plus infinity and NaN pass; induction over the assignments; violated: NaN and infinity are accepted |
| C139 | `finite_diff` in binary64 (`Model/IeeeDiff`), error of each operation (`Lemmas/IeeeErr`) | partial: error bound for arguments up to 10^9; violated: from 2^35 on x + h and x - h are rounded to x, the result is zero |
| C140 | `np.arange(t0, tf + dt, dt)` and `time_step` in binary64 with NumPy's algorithm (`Model/IeeeGrid`), evaluation of roundings (`Lemmas/IeeeEval`) | partial: N + 1 or N + 2 points and error bounds for all windows; exact for binary fractions; violated: 0..20 with step 0.01 has 2002 points |
| C141 | `collect_obs` in binary64, `np.linspace` with NumPy's algorithm (`Model/IeeeGrid`) | partial: acceptance away from the limit, number of observations up to one, each index right or one less where the division has no remainder; violated: see section 5 |
| C142 | `Model/VarGP`, `Model/Ode`, `Model/DoubleWell`, `Model/Likelihood` | `Props/Units`: how each quantity changes with the units (mean c, variance c², rate r, multipliers 1/c and 1/c²), by induction over the integration steps and through the quadrature; partial: every integrator except RK2, and RK2 if r = c²; violated for RK2: see section 5 |
| C143 | `Model/IeeeEnergy` (the one-dimensional free energy in any arithmetic, operations in the order of the source; powers, logarithms and the order of sums are parameters, for doubles with the C99 rules as hypotheses) | `Props/BadNumbers`: a predicate that passes from the result of an operation to its operands (finite; not NaN) is followed backwards through the sum, the prior, the likelihood, the quadrature (for any list of observation indices no interval is left out: invariant of the loop), both integrands and one step of each integrator; the optimizer by C64 and C136; `Props/SameProgram`: with real numbers for doubles it is the program of `Model/VarGP` |
| C144 | `Model/Spline` (SciPy's `CubicSpline`: matrix, right hand side, pieces, evaluation) | `Props/Spline`: the matrix is regular (a maximum principle for the inner derivatives after elimination of the ends); neighbouring pieces differ by a third power, so that the curve is a sum of truncated powers and C²; any not-a-knot spline solves the same system, so there is only one; the hypotheses of C62, C85, C125, C127 and C134 about the interpolation are discharged |
| C145 | `Model/Spline`, `Model/VarGP` | equal observations: the curve is constant; `C145_violated`: two observations, offset `-1/4` between `0` and `1` |
| C146 | `Model/IeeeEnergy` (`VgpF`, one program for every arithmetic), run in binary64, over the reals and over pairs of a real number and a size (`Spec.Sized`) | `Lemmas/Logical`: if the operations of two arithmetics respect a relation with levels, so do the two runs, at a level linear in the numbers of points and observations; then the relation is "error at most `(1+u)^k - 1` times the size". Overflow is excluded by the hypothesis that the result is finite (in these operations a finite result has finite operands); underflow is covered by the smallest normal double in the sizes. `bestLibm` is a library that meets the assumptions. RK2 is left out: its step squares the variance, so the level would double at each point |
| C147 | `Model/VarGP` (`initialization`), `Model/Spline` | the spline follows a change of the unit of time (its linear system is scaled row by row); then the start is computed in both units. Several dimensions and time: it is the same. One dimension, or the state: `C147_violated*` |
| C148 | `Model/IeeeGrad` with real numbers against `Model/VarGP` | `Props/SameGradient`: function by function (each backward integrator, the likelihood, the two processes), then the whole |
| C149 | `Model/IeeeGrad` in binary64, over the reals and over pairs of a real number and a size | `Lemmas/LogicalGrad`: the method of C146 carried through the derivatives, the backward sweep and the last formula |
| C150 | `Model/IeeeGrad` in binary64 | `Props/BadGradient`: the method of C143, backwards from the derivatives through the last formula, the backward sweep, the likelihood and the forward sweep. An observation of the last grid point is not seen: `C150_violated`; hence the suffix of the other two theorems. The prior does not enter the gradient |
| C151 | `Model/Scg` in binary64 on `Model/IeeeEnergy` in binary64 | `Props/ExactDescent`: the descent of the rounded values (C137), that the value is that of the point (C64), that finite values have finite parameters (C143) and the error bound at both points (C146) |
| C152 | `Model/HeapCheck`: `finite_diff` and `check_gradient_function` once more with arrays in memory, the functions as programs that may overwrite and keep what they get | `Props/AliasCheck`: an invariant of the loop (`Diffing`: the two arrays of `finite_diff` have the contents of the value model and are not among those the function keeps; arrays of others are as before). The array that the gradient function returns is not copied: `C152_violated`; hence the suffix |
| C153 | `Model/HeapInit`: `initialization` once more with arrays in memory | `Props/AliasInit`: the invariant of loops that fill two new arrays (`Filling`), a turn that reads back the entry it has just written, and the last entries; then `C131_variational` from the memory that `initialization` leaves |
| C154 | `Model/ScgPrint`: the optimizer with its output, any arithmetic, any functions | `Props/ScgPrint`: a relation between programs that print and programs that do not, closed under sequencing; an invariant of the loop that ties the lines to the statistics |
| C155 | `Model/SharedParams`: `setup` and `run` once more, the parameters as objects in memory that the caller may change between the calls | `Props/SharedParams`: a relation between programs on references and programs on values, closed under sequencing; an invariant: which objects `m_data` refers to. `Props/SharedStep`: a run whose integrators have another step than the process, and what its moments are; all four processes. The step size and the operator are read again by `run`, so the full statement is false |
| C156 | `Model/Simulation`, `Model/Pipeline`. That a run changes nothing in the process object is in the types of the interface: no method that `run` calls assigns to the process or draws from its generator | `Props/RunAgain`: neither call changes `m_data`; the keys of the output in any history are among the eleven names, all of which a successful run writes; then the round trip C78 |
| C157 | `Model/Likelihood`, both forms of the likelihood and the prior | `Props/OneDimPaths`: the explicit values of C51, C53-C57 at 1x1 matrices. The gradients agree for the identity operator, and so do the multipliers (with C22), and differ for others; the energies differ by exactly half the logarithm of the variance (prior) and by the variances of wrong grid points (observations), so both are `_partial` with `_violated` |
| C158 | `Model/LiveVgp`: a `VarGP` object with a reference to its process; the four classes behind one interface; histories of assignments, trajectories and evaluations | `Props/LiveVgp`: an invariant of all calls: the grid of the process stays, and the object differs from a new one only in the stored results, which an evaluation does not read |
| C80 C81 | `main` | `Props/Main`: case analysis; `C81_zero_iff`: status 0 iff a session (`Spec.Completed`) was completed |

Every property of `properties.jsonl` could be expressed in the model. Properties about floating-point rounding, wall-clock time and
the quality of pseudo-random numbers were left out of the list, because exact real arithmetic and an abstract generator cannot
express them.

## 5. Disagreements between code and property

Each line names the theorem that proves the disagreement. The `_partial` theorem next to it says what holds instead.

| where | what happens | theorem |
|---|---|---|
| `runge_kutta2.py:96` | `fun_st(sk, sk, sigma)`: the first stage of the variance uses the variance in place of the linear parameter | `C17_rk2_variance_violated`, `C21_rk2_violated`, `C25_rk2_violated` |
| `ode_solver.py:77` | `lam.dot(at.T)` is `A lam`; the adjoint of `dm/dt = -A m + b` needs `A' lam`; equal only for symmetric `A` | `C26_nonsymmetric_violated` |
| `euler.py:114-153` and siblings | the backward sweeps never read the observation gradient of the last grid point | `C27_last_observation_violated` |
| `gaussian_moments.py:30-32` | the format string of the error message is itself malformed, so `ValueError` instead of `RuntimeError` | `C03_runtimeError_violated` |
| `utilities.py:276-279` | the fallback of the unscented transformation drops the factor `d + k` | `C13_variances_violated` |
| `utilities.py:301-309` | the weights of the covariance output are transposed: a constant function gets a non-zero covariance | `C14_constant_violated` |
| `double_well.py:214` | `8 E[x^6]` where the square of the drift has 16; the energy can be negative, and the returned gradients are those of the correct formula | `C42_energy_violated`, `C43_moment_gradient_violated` |
| `lorenz_63.py` | entries of `dEsde_ds` off the diagonal are twice those of the matrix gradient, while `variational.py` uses them as a matrix gradient | `C46_convention_violated` |
| `lorenz_63.py:62-88`, `lorenz_96.py:131-167` | a scalar noise is rejected, because `np.isscalar` is asked after `np.asarray`; the shipped parameter files for both Lorenz models use a scalar | `C88_lorenz_files_violated`, `C30_scalar_violated` |
| `lorenz_63.py:136-162`, `lorenz_96.py:214-237` | the setter stores the matrix before the factorisation can fail; the test asks for one positive eigenvalue only; the upper triangle is not looked at | `C31_indefinite_violated`, `C31_nonsymmetric_violated` |
| `lorenz_63.py:210-220`, `lorenz_96.py:289-299` | the upper Cholesky factor multiplies the noise from the left: wrong covariance for every non-diagonal noise | `C34_covariance_violated`, `C121_violated` |
| `simulation.py:292-309` | the old file is truncated before the new results are written: a kill or a full disk loses both, and a partly written file loads without complaint | `C122_violated` |
| `likelihood.py:32-34`, `variational.py:69,298` | the object keeps the arrays it is given and hands out its own: writing into the observations or into `arg_out` changes later results | `C123_observations_violated`, `C123_output_violated`, `C123_initial_mean` |
| `simulation.py:175-176` | `*=` overwrites the array that the caller has in the parameters as `tau0`: everything off the diagonal becomes zero | `C123_prior_violated` |
| `simulation.py:92-177` | `setup()` accepts an integrator that does not exist and negative variances of observations and prior; it rejects a number as system noise of a Lorenz system and a single observed component | `C124_accepts_violated`, `C124_rejects_violated` |
| `lorenz_96.py:9-32` | `np.roll` without an axis mixes the samples of a batch, so the unscented energy of `Lorenz96` is not the energy of its drift, and renumbering the components changes it | `C49_batch_violated`, `C111_violated`, `C128_energy_violated` |
| `euler.py:74-87`, `heun.py`, `runge_kutta4.py`, `variational.py:164-176` | for large linear parameters the integrators return negative variances, nothing checks them, and the free energy of the double well and of the Ornstein-Uhlenbeck process falls below every number | `C129_violated` |
| `double_well.py:214` | the double well energy is not an expected square, so the free energy falls below every number even where all variances are positive | `C129_double_well_violated` |
| `utilities.py:144-201`, `variational.py:84-105` | observation times out of order: a part of the window is counted twice in the energy, so the free energy is too large while its gradient stays the same, and `initialization` raises `ValueError`; nothing checks or sorts them | `C130_free_energy_violated`, `C130_initialization_1d_violated`, `C130_initialization_nd_violated` |
| `optim_scg.py:99-100,167-174` | `grad_new` is the very array that `df` returned: when `df` writes into one array of its own, the second call overwrites the first gradient, the curvature is found to be zero and the step is wrong | `C132_reused_buffer_violated` |
| `variational.py:339-400`, `lorenz_96.py:410-425` | the gradients are estimates of the derivatives of an expectation, with the same points; they are not the derivatives of the estimated energy | `C112_violated` |
| `lorenz_63.py`, `lorenz_96.py` (`energy`) | entries of the inverse noise off the diagonal are ignored by the energy, but not by `VarGP.gradient` | `C83_correlated_violated` |
| `stochastic_process.py:21-25` | seed 0 means "no seed" | `C35_seed_zero_violated`, `C89_violated` |
| `stochastic_process.py:190-198` | one observed component: the shapes `(M,)` and `(M, 1)` do not fit | `C39_single_component_violated` |
| `gaussian_like.py:67-94` | the 1-D energy ignores the operator, the gradient does not | `C51_operator_violated` |
| `gaussian_like.py:194` | the noise gradient is not the derivative | `C52_noise_gradient_violated` |
| `gaussian_like.py:145` | variances are read at the position of an observation in the list instead of its time; correlations of the noise are ignored | `C53_time_index_violated`, `C53_correlated_noise_violated` |
| `prior_kl0.py:60` | `-log(s0)` where `-log(s0)/2` belongs | `C55_violated`, `C55_negative_violated`, `C110_violated` |
| `prior_kl0.py:87` | the squared distance is added to every entry; `log_det` gets a matrix that need not be symmetric | `C56_mean_violated`, `C56_covariance_violated` |
| `variational.py:105-139` | 1-D: the offset is the curve itself, without derivative and linear part; n-D: only diagonal noise gives a stationary covariance | `C62_1d_violated`, `C62_nd_violated` |
| `variational.py:84-92` | an observation at an end point of the window makes the spline raise; `collect_obs` produces such sets | `C63_violated` |
| `variational.py:98-101` | the starting offsets leave the range of the observations (the spline overshoots) | `C145_violated` |
| `variational.py:95,101,117` | the start assumes a variance of 0.25 whatever the unit of the state, and in one dimension takes the curve itself, a state, as offset, a state per time; so the start depends on the units | `C147_violated`, `C147_violated_1d`, `C147_violated_nd` |
| `euler.py:137-148` and the other `solve_bwd` | the jump at the last grid point is never added, so an observation of the last point, even NaN, leaves the gradient finite, while the free energy is NaN | `C150_violated` |
| `optim_scg.py:75-285` | at the iteration limit the shared state may be that of a rejected point | `C69_violated` |
| `optim_scg.py:167` | the probe calls `df(x, eval_fun=True)` and drops the further arguments | `C72_violated` |
| `optim_scg.py:75-285` with `variational.py:202-290` | a whole run: the approximate gradient (C96) need not be a descent direction; then `run()` rejects all 500 trial points, returns its start and stores the moments of the last rejected point | `C85_stored_moments_violated`, `C125_progress_violated` |
| `optim_scg.py:70-72` | the statistics are made once per object, so `MaxIt` of a second call can be stale | `C73_violated` |
| `simulation.py:92-177` | a failed `setup()` leaves its traces, and `run()` uses them | `C76_violated`, `C118_violated` |
| `simulation.py:146-158` | with data from the caller, the noise of the observations of an earlier `setup()` stays in use | `C117_violated` |
| `simulation.py:146-148` | user data without a noise level: `run()` raises; a table with named columns: `setup()` raises | `C77_violated`, `C77_table_violated`, `C81_data_option_fails` |
| `simulation.py:289` | different names can give the same file | `C79_violated` |
| `optim_scg.py:209` | `statistics["dfx"]` gets the gradient of the point before the step | `C93_violated` |
| `variational.py:202-290` with the backward solvers | the gradient gives the end points the full weight of the trapezoidal rule and lets an observation act at the wrong end of a step, so it is not the derivative of the free energy; the difference is of the order of the step | `C96_violated`, `C96_order_partial` |
| `prior_kl0.py:60`, `double_well.py:214` | the same two defects as seen from a whole run: the reported number differs from the variational free energy by `-log(s0)/2` and by the missing `8 E[x^6]` | `C91` partial theorems |
| `prior_kl0.py:87`, `gaussian_like.py:96-154` | the number reported for Lorenz-63 is not the free energy of the reported parameters | `C99_violated`, `C99_diagonal_partial` |
| `lorenz_96.py:389-425` with the forward solvers | for a valid configuration the covariance at the initial parameters can become negative, and `run()` ends with `LinAlgError` | `C103_completes_violated`, `C103_run_partial` |
| `simulation.py:199-203`, `gaussian_like.py:96-154`, `stochastic_process.py` | with a mask as operator `run()` raises `ValueError` for every valid configuration (with one component already `setup()`), except for all three components and exactly three observations | `C104_run_violated`, `C104_setup_violated`, `C104_setup_partial` |
| `gaussian_like.py:96-154,200-243` | in that remaining case only the sum of the deviations of the three components counts, and the derivative by the covariance is the same number in all entries | `C104_energy_violated`, `C104_energy_too_small_violated`, `C104_gradients_violated` |
| `gaussian_like.py:46-154,156-243` | one value with several times, or one time with several values, is accepted: the value is repeated (in one dimension with the full constant, otherwise with the constant counted once), or, in several dimensions, all values but the first are ignored | `C133_one_value_1d_violated`, `C133_one_value_nd_violated`, `C133_one_time_1d_violated`, `C133_one_time_nd_violated` |
| `optim_scg.py:193-194` | the comparison quotient of an uphill step can underflow to `-0.0`, and `-0.0 >= 0.0` is true: the step is accepted | `C137_violated` |
| `optim_scg.py:75-285` | NaN as value at the start: all trial points are rejected, and `(x0, NaN)` is returned after the last iteration without an exception | `C136_violated` |
| `double_well.py:40,97`, `ornstein_uhlenbeck.py:34,42,73,101`, `ode_solver.py:21`, `fwd_ode.py:25`, `bwd_ode.py:25` | `value <= 0.0` is false for NaN and infinity, so both are accepted; `json.load` reads them from a parameter file | `C138_violated` |
| `utilities.py:41-61`, `optim_scg.py:320` | the step 1e-6 does not depend on the size of the argument: for entries of 2^35 or more `x + e` and `x - e` are both `x` in double precision and the numerical gradient is zero, whatever the function | `C139_violated` |
| `double_well.py:133`, `ornstein_uhlenbeck.py`, `lorenz_63.py`, `lorenz_96.py` (`make_trajectory`) | `np.arange(t0, tf + dt, dt)`: in double precision `(tf + dt - t0) / dt` may be rounded to more than N + 1, then the window has one point too many and ends after `tf`; e.g. 0..20 with step 0.01 gives 2002 points | `C140_violated` |
| `stochastic_process.py:155-172` | `int(1.0 / dt)` and the floors are taken after rounding: a density of 10 with step 0.1 is accepted on 0..1 and rejected on 1..2; 0..0.29 with density 100 gives 28 observations, not 29; with 30 times and 21 observations the eleventh index is 14, not 15 | `C141_violated` |
| `runge_kutta2.py:96` | the predictor of the variance takes the variance where the linear parameter belongs, so a rate is replaced by a squared state and the result depends on the units: the free energy of one problem changes by 4.5 when the state is written in half the unit | `C142_violated` |
| `optim_scg.py:315-328` | the array that the gradient function returns is not copied before the objective is called again: functions that compute the value and the gradient together and keep the array with the gradient are reported as "FAILED" although every value and every gradient is exact | `C152_violated` |
| `simulation.py:106-128, 188-206` | `setup()` stores references to the dictionaries in `params`, and `run()` reads the step size and the operator from them again: changing `params["Time-window"]["dt"]` between the two calls, for a second simulation say, breaks the run of the first or, with another positive step, changes its result without an error | `C155_violated`, `C155_every_process_violated`, `C155_silent_violated` |
| `prior_kl0.py:60-62`, `gaussian_like.py:145` | for a state with one component the two forms of the energies disagree: given as arrays with one entry, the prior term is half the logarithm of the variance larger than given as numbers, and the observation term uses the variances of the first grid points (C53, C55); with an operator other than plus or minus one the gradients differ as well | `C157_prior_violated`, `C157_observation_violated`, `C157_operator_violated` |

Not counted as a disagreement: a parameter file that does not exist leaves `main` as `FileNotFoundError`; the exit status of the
process is 1 nevertheless (`C81_missing_file`).

## 6. Tests of the theorems

`seeded/LOG.jsonl` records edits of the model that mimic programming errors, with the theorems that fail. The edited copy is compiled
module by module; a failing proof is replaced by an error marker and the compilation goes on, so that all theorems that depend on a failed
step are found. `direct` names the declarations whose own proof breaks, `failed` the property theorems that depend on one of them.
