# Formal model of libmpc in Lean 4 — design

The model is written from the text of `/repo/include/mpc` (nothing is compiled or run).
All Lean sources live under `lean/Verif`; `lake build` in `lean/` checks everything.

## Layers

| directory | contents |
|---|---|
| `Verif/Basic` | faults, extended numbers, checked Eigen-like matrices, loops, Hoare-style reasoning for `Exec` |
| `Verif/Model` | the code, function by function; each definition cites the lines it models |
| `Verif/Spec`  | small stand-alone specifications (no model helper is used in them) |
| `Verif/Proofs` | helper lemmas |
| `Verif/Props` | the property theorems, one group per file, each followed by a non-vacuity `example` |

## Modelling decisions

* **Numbers.** `double` is an arbitrary linearly ordered field `K` (exact arithmetic). Bounds are `Ext K`
  (`-inf`, finite, `+inf`). The profiler and the discretization use `ℝ` (square root, matrix exponential).
  The model of the linear controller asks so little of its numbers (`ExactOps`: what rounding preserves) that it also runs over
  floating-point numbers (`Model/Rounding.lean`), and C103-C107 are about these runs (C108 and C109 about roundings elsewhere): round to nearest even in any precision,
  exponents unbounded (no overflow, underflow, NaN), sums from left to right, no fused multiply-add. Everywhere else rounding is
  not modelled. NaN is modelled only where the property is about it (feasibility test, C123, C126-C129).
* **Undefined behaviour** (out-of-range Eigen access, size mismatch, use of an unset pointer, double free,
  signed overflow), `exit`, failed `assert` and C++ exceptions are distinct outcomes (`Fault`) of the
  executable model, never assumed away.
* **Integers.** Dimensions are naturals after the `assert`s of `setDimension`; slice bounds are `Int` with
  32-bit overflow a fault; `size_t`/`unsigned` casts are reductions modulo 2^64 / 2^32.
* **Solvers.** OSQP and NLopt are oracles: each run consumes an arbitrary outcome (setup rejected, answer with
  arbitrary primal/dual vectors and status, exception). Nothing is assumed about their numerical quality.
* **User callbacks** are arbitrary functions of (old buffer, arguments); where a result needs it, the
  hypothesis "the callback writes its whole output" is explicit.
* **Histories.** The controllers are state machines; histories are lists of API calls of any length.

## Properties: plan

| id | modelled | proof |
|---|---|---|
| C01 | builder setters, `get`, cached matrix assembly, as checked block operations | pointwise characterisation of every block by loop invariants, then row sums split per step |
| C02 | same | same, completing the square |
| C03 | same | expected false (column k-1 used): counterexample; partial: true for k=0 and for constant references |
| C04 | same | row characterisation |
| C05 | same | expected false (shift by one): counterexample; partial: exact rows, constant bounds |
| C06 | same | row characterisation with offset |
| C07 | same | expected false (x_k with u_{k-1}); partial: exact rows, U = 0 |
| C08 | same | expected false (off by one); partial: frozen from ch+1 on, exact when ch >= ph-1... |
| C09 | same | expected false (out of range column whenever ch < ph); partial: ch = ph |
| C10 | whole LMPC front end as state machine | refinement to a per-step register file, induction on histories |
| C11 | same | invariant "cached terms = function of configuration" over histories |
| C12 | same | initial state characterisation |
| C13 | Hessian assembly | quadratic form as weighted sum of squares |
| C14 | CSC conversion loops | loop invariants, decode |
| C15 | slice overloads | loop invariants |
| C16 | slice validation | expected false; counterexamples, exact characterisation of what is accepted |
| C17 | disturbance slice overload | expected false; counterexample; partial |
| C18 | LOptimizer::run extraction | loop invariants + C01 |
| C19 | LOptimizer::run over histories | induction on histories |
| C20 | status conversion | expected false on two codes; partial: all other codes |
| C21 | warm start bookkeeping | induction on histories |
| C22 | bounds | row characterisation; second half expected false |
| C23 | `get` | function-of-arguments theorem over histories |
| C24 | allocation ledger of run/clearData/destructor | invariant; destructor expected to double free |
| C25–C28 | Profiler | induction on sequences; C26 expected false for n >= 3 |
| C29–C30 | Logger | trace semantics |
| C31 | Dim.hpp | direct; `int - Size` expected false |
| C32–C33 | RK4 | induction on sub-steps; C32 expected false for time-varying fields |
| C34 | Utils.hpp over ℝ | matrix exponential of block matrices, derivative |
| C35–C36 | Mapping | loop invariants; C35 expected false under state scaling |
| C37–C41 | Constraints, Objective | loop invariants, exactness of finite differences on affine functions; C39, C40 expected false |
| C42 | Model::getOutput | loop invariant |
| C43 | Constraints::isFeasible | direct; NaN expected false |
| C44–C46 | NLOptimizer bounds and parameters | induction on histories; C45, C46 expected false |
| C47–C48 | NLOptimizer::run | loop invariants, induction on histories |
| C49 | NLMPC setters over an NLopt ledger | induction; expected false |
| C50 | unsupported setters | state machine |
| C51, C53 | Jacobian loops, buffers | loop invariants |
| C52 | IComponent, IDimensionable | decision logic |
| C54 | status conversions | total case analysis |
| C55 | assembled output rows, `get` | row lemmas of C06; violation witness + partial for constant disturbances |
| C56 | results over histories | induction on histories |
| C57 | all faults of the linear model | invariant + totality of safe histories; violation witness |
| C58 | NLOptimizer::run extraction, getOptimalSequence, getLastResult | invariant over histories; expected false for the first state under scaling |
| C59 | all faults of the nonlinear model | invariant + totality of safe histories; violation witness |
| C60 | both instantiations (compile-time / run-time sizes) of the nonlinear front end | two runs in lock step; expected false for setEqConFunction |
| C61 | constructors (setDimension, onSetup, onInit) | totality of the construction; expected false for ch > ph |
| C62 | IMPC::optimize with profiler, both controllers | projection of the history on the recorded results, C25-C27 |
| C63 | C01-C08 joined with an exact solver of the assembled QP | minimiser of the QP <-> best plan; expected false for ch < ph |
| C64 | bounds handed to NLopt and results | C44 + mapping; expected false under scaling |
| C65 | everything handed to NLopt, joined with an exact solver | solution of the solver problem <-> best allowed plan; expected false for scaled bounded inputs |
| C66 | status conversion | total case analysis |
| C67 | steps of the four Jacobian routines | the post lemmas expose the steps; counterexamples with entries of different magnitudes |
| C68 | gradients over the reals | mean value inequality for the quotients, chain rule through scaling and move blocking |
| C69 | C63 | strict convexity of the plan cost: midpoint argument, induction over steps |
| C70 | C63 | the resting plan has cost zero; C69 |
| C71 | C63 | cost scales, constraints do not change |
| C72 | result of optimize, objective of the assembled QP | expected false (constant missing); partial: the formula |
| C73 | C63, C01-C08 | monotonicity of the allowed plans |
| C74 | Programs with several controllers: objects, heap of optimizers, pointers (`Model/Instances.lean`) | separation invariant; simulation of every controller alone, by induction on the program; copies as witnesses of the violation |
| C75 | same model | invariants on the heap, by induction on the program; witnesses of leak and double release |
| C76 | C63; `Spec/Symmetry.lean` | cost and constraints scale (`Proofs/PlanSymmetry.lean`); C69 for the command |
| C77 | C63; `Spec/Symmetry.lean` | the prediction commutes with the state map, by induction on the step; C69 |
| C78 | histories of C63 with a loop of optimize calls; `Spec/ClosedLoop.lean` | the configuration is kept along the loop (induction), C63, C18 |
| C79 | same | induction on the step with C70 and C78 |
| C80 | callbacks of the solver with the memory it owns (`Model/NlWrappers.lean`) | invariant: what is bound has been set; sizes of the evaluations; C49 and C51 for the contents |
| C81 | signals as a vector space (`Spec/Superposition.lean`) | the cost as a bilinear form; best plans characterised by first-order conditions |
| C82 | same | the form is injective on the finite-dimensional space of frozen plans, hence onto its dual |
| C83 | plant and cost of a linear configuration as user functions (`Spec/SameTask.lean`) | C63 and C65 give two optima of the same plan problem; uniqueness of best plans |
| C84 | answers with a residual (`Spec/Accuracy.lean`) | every row group of the problem up to a residual, by the same row identities as C01-C08; induction over the steps for the plant |
| C85 | answers with a cost gap (`Spec/Accuracy.lean`) | the midpoint identity of the plan cost (C69) bounds the weighted distance by the cost gap |
| C86 | closed loops (`Spec/ClosedLoop.lean`, `Spec/Recursive.lean`) | the plan of one step, shifted by one and prolonged, satisfies the problem of the next; induction over the steps |
| C87 | the same loops, with costs per step | the best cost falls by the cost of the step taken; telescoping; a bounded sum of nonnegative terms has small terms |
| C88 | `Model/Throwing.lean`: callbacks and checks left by an exception, with arbitrary contents of the working arrays | interrupted evaluations keep the settings (`Holds`); the report reduces to that of a failed solver; induction over two histories with the same course |
| C89 | the output function throwing at the end of `optimize` | the writes before that point are those of an ordinary call; a sample history violates the claim |
| C90 | `Model/Messages.lean`: the messages of every call, the one logger, programs with several controllers | case analysis of the calls; what the logger writes for a list of messages by induction |
| C91 | the same | the settings in force after a program, by induction; simulation between programs with and without logging |
| C92 | the same; the report of IMPC.hpp:157-163 | direct from the messages; sample programs violate the claim at level ALERT |
| C93 | the solver's problem and the reported sequences (C65) | an allowed plan meets the model within the tolerance; induction over the horizon |
| C94 | nonlinear closed loops (`Spec/NlLoop.lean`) | the plan of one step, moved one ahead and prolonged, is allowed in the next; induction over the steps |
| C95 | the same loops, stage and terminal costs | telescoping; inexact answers add their error once per step |
| C96 | two histories, one relaxing the other (`Spec/NlCompare.lean`) | allowed plans of the one are allowed by the other |
| C97 | two histories asking the same | best plans coincide |
| C98 | the same with an increasing function of the objective | the order of costs decides which plans are best |
| C99 | `Model/Environment.lean`: stored functions are functions of an environment which may be another one at every evaluation | the history acts like the one frozen in the present environment: simulation of the two runs, by induction over the calls |
| C100 | `Model/Threads.lean`: threads with their own programs, a schedule of logger operations and effects of calls, the memory every step accesses | expected false (the logger): counterexample for every schedule; partial: invariant that objects and addresses belong to threads |
| C101 | same | simulation of every thread by its program alone, up to addresses; progress by induction on what is left to do |
| C102 | same | expected false: two counterexamples; partial: the operations on the logger are an interleaving of those of the threads |
| C103 | `Model/Rounding.lean`: floating-point numbers as fixed points of a rounding; the same model of LMPC run over them | the run over rounded numbers compared with a run over the field which holds the same numbers: entries of the rows are products with 0, 1, -1 only, hence exact |
| C104 | same | error calculus (`Approx`: relative error of n operations on quantities without cancellations) |
| C105 | same | same, entry by entry of the Hessian and the linear term, summed against the decision vector |
| C106 | same | expected false: counterexample in every precision; partial: error calculus, and exactness for selecting outputs |
| C107 | same | SeqSpec (what `run` copies) and the error calculus; drift by induction on the step |
| C108 | `Model/Tolerance.lean`: the conversion of the tolerance arguments to `float` in front of the nonlinear model | expected false (default tolerance is not a float); partial: the flag is the one of the converted history |
| C109 | `Model/Profiler.lean` with a rounding after every operation | expected false (three equal durations); partial: invariant with (1 +- eps)^k factors, by induction on the sequence |
| C110 | `Model/NlRounding.lean`: the evaluations of the nonlinear controller with a rounding after every operation | post-conditions of the rounded loops; values at the rounded decoding; `rnd = id` gives back the exact model |
| C111 | the same | the two points of a central difference agree but for the perturbed entry, so equal values are subtracted |
| C112 | the same | expected false (forward differences against an old value); partial: variation bound |
| C113 | the same | expected false for the slack (step absorbed); partial: error analysis of the quotients for nearly affine functions |
| C114 | the same | expected false (absorbed increments); partial: error analysis, exact zeros for discrete models |
| C115 | the same | error analysis of the blocks of the Jacobian of the model equations |
| C116 | the linear controller of `Model/LMPC.lean`, called with vectors and matrices of any sizes (a failed Eigen assertion is a fault) | expected false (no test in the library); partial: case analysis over the calls for what is insisted on, and what follows from what is not |
| C117 | `Model/Python.lean`: the tables of exported functions, the choice of overloads and conversion of arguments by pybind11, the wrappers of Python functions | expected false (`setReferences` bound twice; equality constraints); partial: evaluation of the choice for each call, case analysis over the tables, induction over the program |
| C118 | `Model/Print.lean`: `operator<<` of the statistics onto a stream with its format state, decimal numerals digit by digit | expected false (precision 2 stays in force); partial: induction on the digits (reading back a numeral), on the entries of the map, with the invariants of C25 and C27 |
| C119 | `Model/Sized.lean`: the nonlinear controller with state, output and inequality functions which return lists, assignments to Eigen blocks requiring equal sizes | expected false (no length is compared); partial: simulation between the two controllers for right lengths, induction on histories and on the evaluations of the solver for wrong ones |
| C120 | `Model/Programs.lean`: interactive programs (functions from what was shown to the next call) and their play with a controller; the example programs call by call | invariant of the play (the history is configured/admissible, everything shown fits), from the totality theorems of both controllers |
| C121 | `Model/ProgramsEnv.lean`: programs of C120 with the environments of C99; examples/ugv_ex.cpp call by call over the reals | invariant of the play; the flag through the abstract state of the frozen history; the discrete model by the uniqueness theorem of C34 |
| C122 | no new model: the components as the tests of the project call them | the general lemmas about the builder, the mapping, the evaluations and the bounds; series of a nilpotent matrix for the discretization |
| C123 | Model/Doubles.lean: IEEE addition, multiplication and negation with NaN and infinities, the loop of `get` run on them (the same definition `getBody`, at another type) and the assembly of the bounds | a description of the loop which uses no law of arithmetic; NaN is absorbing; sums without infinities are NaN iff a term is |
| C124 | the existing model of the starting point (cold fill, shift) and of the bounds; Spec/NlStarting.lean: which starts NLopt takes | the starting point and the bounds in terms of the history (C44, C47), induction over the loop; a refused call leaves the starting point as it was |
| C125 | Model/NlStartRounding.lean: the shift of the last answer through `Iz2u` and `Iu2z` with a rounding after every operation | sums with one non-zero term, a rounding error bound; the witness is computed with the `double` rounding of Model/Rounding.lean |
| C126 | Model/NlDoubles.lean: objective, constraints and state equation evaluations with user functions returning IEEE values (numbers, NaN, infinities); products with dense matrices sum over all entries | post-conditions stating from which quotients each entry is computed (`From`), by the loop lemmas of the exact model |
| C127 | same model as C126; Spec/NlDomain.lean: functions defined on a set of trajectories | every probe of C126 is a trajectory beside the current one; bounds of the difference steps |
| C128 | Model/NlStartDoubles.lean: starting point on `double`s with NaN and infinities; Model/NlDoubles.lean: inverse of a zero scaling is infinite | loops of C47 on `double`s; an infinite factor in a sum makes it a non-number; division of the residual by zero |
| C129 | same model; Spec/NlStartDoubles.lean: each input of the start comes from all inputs | expanding and compressing inputs are dense products: one non-number reaches all sums |
| C130 | Model/NlCalls.lean: the evaluations as programs which call user functions (a tree of calls); run with the functions, traced, or with functions which throw | refinement: running the programs is Objective.lean and Constraints.lean; traces of the loops by induction against the lists of Spec/NlCalls.lean; exceptions by induction on the tree |
| C131 | same model; Spec/NlCalls.lean: inputs held, measured state shown | membership in the traces of C130 |
| C132 | Model/NlOptimizeCalls.lean: callbacks, feasibility check and report as programs which call user functions, and `optimize` with functions which throw | refinement: running the program is `optimize`; trace by induction on the callbacks, with the traces of C130; exceptions phase by phase |
| C133 | Model/NlStateful.lean: the programs of C130 and C132 run with user functions which have a memory | predicate on programs (what holds whatever is answered), by induction over loops, requests and calls of the history; answers without memory by induction on programs |
| C134 | Model/NlUnruly.lean: the programs of C132 run with user functions which have a memory and may throw, with the catch clauses of `run` | the predicate of C133 carried over to runs which stop at the first exception; invariant over histories |
| C135 | Model/NlUnruly.lean: the user functions are given what `getLastResult` and `getOptimalSequence` return at the moment they are called | the calls of a run split where `sequence` is written; invariant over the run |
| C136 | Model/Threads.lean: `fork`, the threads of C100 started in the middle of a program of Model/Messages.lean | expected false (logger; copies); the set-up splits into one world per thread (simulation, by induction over the set-up), from which the invariant of C101 goes on |
| C137 | Model/NlNested.lean: user functions of Model/NlUnruly.lean whose memory is a world of other controllers (Model/Instances.lean) | every link between memories and calls which holds for one call holds for a history (induction over the program of calls); bisimulation for the outer controller |
| C138 | Model/Mixed.lean: a family of classes as one class, so that all of Model/Instances.lean applies to programs with linear and nonlinear controllers of all dimensions | invariant of one controller (its optimizer points back to it, no other object reaches it) kept by every step, copies of others included (Proofs/Uncopied.lean); linear controllers can never be copied; induction over the program |
| C139 | Spec/Copies.lean: which controller a name stands for, from the text of the program alone; Model/Instances.lean with copies | invariant: every object points to the optimizer whose number its name stands for; simulation of every optimizer by a controller which is alone, and conversely, by induction over the program |


## Trusted base

* **Lean 4.33.0's kernel**, which checks every theorem, and the statements in `Verif/Spec` and `Verif/Props`.
* **Axioms.** Every theorem of `MANIFEST.json` depends on a subset of `propext`, `Classical.choice` and `Quot.sound`
  (checked with `#print axioms` for all of them; some depend on none). No axiom is added, nothing is evaluated by compiled code.
  Mathlib is used (fields, orders, matrices, `NormedSpace.exp`, derivatives, real square root).
* **The model.** `Verif/Model` is a transcription by hand of `/repo/include/mpc`; that it says what the C++ says is
  not proved. The readings it rests on: Eigen's checked element access, block and size assertions; two's complement
  conversions between `int`, `unsigned` and `size_t` (64 bit); `INT_MAX = 2^31-1`; virtual dispatch; order of evaluation;
  the C interfaces of OSQP and NLopt as the code uses them (codes, ownership of workspaces, vectors handed back,
  `add_*_constraint` accumulating, `set_maxtime`, `osqp_setup` rejecting problems with `l > u`).
* **Wherever "exact solver" appears** (C63, C65) it is a hypothesis on the answer of the oracle, written out in the theorem.

## What is modelled

| file of `/repo/include/mpc` | model |
|---|---|
| `Dim.hpp`, `Types.hpp` (`make_dimension`) | `Model/Dim.lean` : all of it |
| `Types.hpp` | `Model/Types.lean`, parameter and result structures in `Model/LOptimizer.lean`, `Model/NLMPC.lean` |
| `IDimensionable.hpp`, `IComponent.hpp` | `Model/Component.lean` (decision logic: who checks what), dimensions everywhere |
| `IMPC.hpp` | `Model/Interface.lean` (statistics), `Model/Instances.lean` (construction, copies, destruction, ownership of the optimizer), slice checks in `Model/LMPC.lean`, `optimize`/getters in the controllers, messages and the report of `optimize` in `Model/Messages.lean` |
| `LMPC.hpp` | `Model/LMPC.lean`: every member except `setConstraints` (see below) |
| `LMPC/ProblemBuilder.hpp` | `Model/ProblemBuilder.lean`: every function, loop by loop; runs over exact or floating-point numbers (`Model/Rounding.lean`) |
| `LMPC/LOptimizer.hpp` | `Model/LOptimizer.lean`, `Model/Sparse.lean`: every function |
| `NLMPC.hpp`, `NLMPC/NLOptimizer.hpp` | `Model/NLMPC.lean`: every function; `Model/Throwing.lean`: the same with user functions which throw; `Model/Environment.lean`: with functions which read variables of the program; `Model/Messages.lean`: what it logs |
| `NLMPC/Mapping.hpp`, `Model.hpp`, `Objective.hpp`, `Constraints.hpp`, `Base.hpp` | `Model/Mapping.lean`, `NlModel.lean`, `Objective.lean`, `Constraints.lean`, `Feasible.lean`, `NlProblem.lean`: every function |
| `NLMPC/Mapping.hpp`, `Objective.hpp`, `Constraints.hpp`: the evaluations for the solver, in floating-point arithmetic | `Model/NlRounding.lean`: a twin of the exact model with a rounding after every operation |
| `python/pybind_export.cpp` | `Model/Python.lean`: tables of the exported functions with the documented rules of pybind11 (not in the repository); `Model/Sized.lean`: user functions which return arrays of any size; the GIL, keyword arguments, `None` and the lifetime of Python objects are not modelled |
| `examples/vanderpol_ex.cpp`, `networked_oscillators_ex.cpp`, `quadrotor_ex.cpp`, `python/examples/*.py` | `Model/Programs.lean`: the calls they make; printing and plotting left out |
| `examples/ugv_ex.cpp` | `Model/ProgramsEnv.lean`: the calls it makes with the variables its functions read; printing left out |
| `ProblemBuilder.hpp:528-633` on arguments with NaN and infinities | Model/Doubles.lean |
| `NLOptimizer.hpp:409-501` (starting point) in rounded arithmetic | Model/NlStartRounding.lean |
| `Objective.hpp`, `Constraints.hpp`, `Model.hpp:72-96` with user functions returning NaN or infinities | Model/NlDoubles.lean |
| `NLOptimizer.hpp:415-495`, `Mapping.hpp:225-261` on doubles with NaN and infinities | Model/NlStartDoubles.lean |
| `Objective.hpp:89-257`, `Constraints.hpp:199-906`, `Model.hpp:72-96` as programs calling user functions | Model/NlCalls.lean |
| `NLOptimizer.hpp:409-608,714-848`, `Constraints.hpp:145-190` as programs calling user functions | Model/NlOptimizeCalls.lean |
| `IDimensionable.hpp:86-149` called in place with a memory of their own | Model/NlStateful.lean |
| `NLOptimizer.hpp:502-608` with user functions which remember and throw | Model/NlUnruly.lean |
| `IMPC.hpp:173-186` called by user functions during `optimize` | Model/NlUnruly.lean |
| programs with controllers of both classes and of several dimensions | Model/Mixed.lean |
| user functions which use other controllers (lambdas capture by reference) | Model/NlNested.lean |
| `NLMPC.hpp:166,229,251`, `NLMPC/Constraints.hpp:114,130` (types of the tolerance arguments) | `Model/Tolerance.lean`: conversion from double to float |
| `Profiler.hpp` | `Model/Profiler.lean`: the statistics, over exact or rounded reals; `Model/Print.lean`: the printed text |
| `Logger.hpp` | `Model/Logger.lean`: all of it, as a text trace; `Model/Messages.lean`: the one logger shared by all controllers; `Model/Threads.lean`: used from several threads |
| `Integrator.hpp` | `Model/Integrator.lean`: all of it |
| `Utils.hpp` | `Model/Discretization.lean`: all of it |

`tools/coverage.py` lists the lines of `/repo/include/mpc` which no comment of the model cites; what remains are
declarations (`using`, templates, default constructors), pure virtual functions and the items of the next section.

## What is not modelled

* Rounding of `double` outside C103-C115 and C125 (in C110-C115 the calls and evaluations before the rounded ones run in the exact model); overflow and underflow; NaN and infinities except where a property is about them
  (bounds, feasibility test, C123, C126-C129). Division by a zero scaling factor gives 0 in the model (except in C128, where it is infinite or NaN); theorems which could see it assume
  non-zero scalings.
* The numerical behaviour of OSQP, NLopt and of Eigen's matrix exponential (taken as the exact exponential).
* The text of the log messages of type DETAIL (all other messages are modelled: C90 to C92) and stack traces.
* Stream flags other than `fixed` and the precision when the statistics are printed (width, fill, base, locale), and stream errors.
* User functions which diverge, call `optimize` or a setter of the controller which calls them, keep hidden state (except in C133, C134, C135, C137), or (with fixed dimensions, where Eigen asserts) resize the vector they fill, and exceptions not derived from
  `std::exception`. (User functions which throw others are modelled: C88, C89. So is calling an empty user function.)
* Wrap-around of loop counters and of sizes (`ph * nx` and the like stay below 2^64; `int` members `ix`, `jx` are naturals).
* Concurrency inside the library: the code starts no threads of its own; `#pragma omp` only appears in log output (IMPC.hpp:228-237). Threads started by the *user* are modelled in Model/Threads.lean (C100-C102, C136): an interleaving (sequentially consistent) semantics whose units are one logger operation or the effect of one call, recording the memory each unit touches. What C++ does after a data race (undefined behaviour) and weaker memory orders are not modelled: C100 states which races exist, C101 and C102 describe the interleaving semantics only.
* `LMPC::setConstraints` (LMPC.hpp:328-340) calls `ProblemBuilder::setConstraints`, which does not exist: the member
  template fails to compile when it is used, so no program can observe it.
* `discretization` with output map (Utils.hpp:108-118) only compiles for `ny = nx` (see `Model/Discretization.lean`).

<!-- generated by tools/gen_design.py -->

## Final status of each property, and the disagreements found

`violated` theorems refute the English claim on the model by a concrete reachable case; the `partial` theorems say what does hold, for every case. "Proved" properties hold as stated.

| id | property | status | what is proved / what is wrong |
|---|---|---|---|
| C01 | Linear QP equalities encode exactly the plant dynamics | proved | Equality rows <-> plant trajectory, for all dimensions, histories and decision vectors. |
| C02 | Linear QP objective is the documented weighted tracking cost | proved | Objective of the QP = half the weighted tracking cost up to a constant (the increment reference is indexed as in the code, see C03). |
| C03 | Each input-increment reference is used at the step it is given for | partial | Violated: du_k is tracked against column k-1 (column 0 is used twice). Partial: the objective with the shifted reference, and the claim for constant references. |
| C04 | State bounds hold at the steps they were set for | proved | Proved. |
| C05 | Input bounds hold at the steps they were set for | partial | Violated: column k bounds u_{k-1}, column 0 the already applied command. Partial: what is bounded, and the claim for constant bounds. |
| C06 | Output bounds hold for the predicted output including the disturbance | proved | Proved for the output as the code computes it (d_{k-1}; see C55). |
| C07 | Scalar constraint relates state and input of the same step | partial | Violated: x_k is paired with u_{k-1}. Partial: the pairing in the code, and the claim when U = 0. |
| C08 | The input is frozen from the control horizon on | partial | Violated: the increment of step ch is not frozen. Partial: frozen for k > ch, full claim when ch = ph. |
| C09 | Whole-horizon input bounds are accepted for every valid pair of horizons | partial | Violated: out-of-range access whenever ch differs from ph. Partial: accepted and right for ch = ph. |
| C10 | Setters of the linear controller form an independent last-write-wins register file | partial | Proved except for the coefficients of the scalar constraint, which are shared by all steps (violated theorem). |
| C11 | The QP matrices always reflect the latest configuration | proved | Proved. |
| C12 | An unconfigured linear controller imposes no state, input, output or scalar limits | proved | Proved. |
| C13 | The QP Hessian is symmetric and positive semidefinite for non-negative weights | proved | Proved. |
| C14 | The sparse conversion handed to OSQP is lossless and well formed | proved | Proved. |
| C15 | A slice setter changes exactly the steps in [start,end) | proved | Proved: a refused slice changes nothing; an accepted one with 0 <= start changes exactly [start,end), {-1,-1} everything, for each slice overload. |
| C16 | Every non-empty slice inside the horizon is accepted and every other one is rejected | partial | Violated both ways: {1,ph} is refused, negative starts are accepted. Partial: exact accepted set, soundness for start >= 0, the unset slice. |
| C17 | Disturbance sequences can be set on any slice of the prediction horizon | partial | Violated: the control horizon is used for the check. Partial: equal horizons. |
| C18 | The reported optimal sequence is the solver's solution and obeys the plant model | proved | Proved: sequences and command are the solver's vector; they obey the plant if the vector satisfies the equality rows. |
| C19 | When the linear solver fails, the controller keeps the last successful command | partial | Violated: OSQP always hands back vectors and the code only tests the pointer. Partial: when no vectors are handed back; and when vectors come only with solutions. |
| C20 | A linear SUCCESS status is only reported for a feasible solution | partial | Violated: codes 3 and 4 (inaccurate infeasibility) give SUCCESS with is_feasible = false. Partial: every other code; exact extent. |
| C21 | Warm start hands the solver the previous primal and dual solution | partial | Violated: vectors which are not a solution are used for the next warm start. Partial: exact vectors used, claim for conforming solver; settings handed to the solver proved; short user vectors fault. |
| C22 | Consistent bounds always pass the solver's validation, inconsistent ones are not silently ignored | partial | First half proved (l <= u iff the limits are consistent). Second half violated: a rejected problem dereferences the missing workspace, always. |
| C23 | Problem construction has no memory | proved | Proved. |
| C24 | Solver memory of the linear controller is freed exactly once | partial | Violated: the destructor releases the workspace again after any optimize. Partial: no leak and no double release over every history of calls. |
| C25 | Profiler counters, total, average, minimum and maximum are exact | proved | Proved over exact reals: count, minimum, maximum, total, mean of the recorded solutions, for every sequence. |
| C26 | Profiler standard deviation is the sample standard deviation | partial | Violated: the factor n/(n-1) is an integer division, so from the third solution on the reported deviation is not the standard one. Partial: exact for two solutions, bounds and the constant case. |
| C27 | Profiler status histogram is exact and percentages add to one hundred | proved | Proved. |
| C28 | resetStats makes the statistics as new | proved | Proved. |
| C29 | Log filtering emits exactly the messages at or above the configured level | proved | Proved. |
| C30 | Logger reset restores prefix and level only | proved | Proved. |
| C31 | Dimension arithmetic is integer arithmetic and is static exactly when both operands are | partial | Violated: int - Size is swapped; static -1 collides with the dynamic marker. Partial: the differences whose result is representable. |
| C32 | Multi-step Runge-Kutta integration composes | partial | Violated: time is not advanced between sub-steps. Partial: autonomous fields, at most one sub-step, the formula actually computed. |
| C33 | Runge-Kutta step is exact on cubic-in-time and matches the degree-4 Taylor step on linear systems | proved | Proved (exactness on cubic right-hand sides, linear and affine fields) over an arbitrary field. |
| C34 | Discretization is the exact zero-order-hold sampling | proved | Proved over the reals with Mathlib's matrix exponential (the third overload only compiles for ny = nx, see DESIGN). |
| C35 | Move blocking expands the nonlinear decision vector as documented | partial | Violated: the first state row is multiplied by the state scaling. Partial: everything else for every scaling history; the full claim when the state scaling is one. |
| C36 | Compressing an expanded input sequence gives back the decision inputs | proved | Proved for every scaling history. |
| C37 | Nonlinear equality constraints vanish exactly on trajectories of the model | partial | Violated: with a state scaling the constrained trajectory starts at the scaled measured state. Partial: the equivalence when every measured component is unscaled or zero, and for every history with the start the code uses. |
| C38 | The gradient of the dynamics constraints given to the solver is exact for affine models | proved | Proved for every history and every affine model, discrete or continuous. c38_api_gradient_exact states the same for complete histories of API calls, inside optimize. |
| C39 | The objective gradient given to the solver is exact for affine objectives | partial | Violated: the chain-rule factor of the state scaling is missing in the objective gradient. Partial: exact for every unscaled (or unused) state component, all inputs and the slack. c39_api_gradient_partial states the same for complete histories of API calls, inside optimize. |
| C40 | The gradient of user inequality constraints is exact for affine constraints | partial | Violated: the input row of step ph is never perturbed. Partial: exact for every affine constraint that does not depend on it. c40_api_gradient_partial states the same for complete histories of API calls, inside optimize. |
| C41 | The gradient of user equality constraints is exact for affine constraints | proved | Proved for every history and every affine equality constraint. c41_api_gradient_exact states the same for complete histories of API calls, inside optimize. |
| C42 | Predicted outputs are the user's output map at every step | proved | Proved for every history. |
| C43 | A nonlinear result is flagged feasible exactly when the user's constraints hold within tolerance | partial | Violated: a constraint value that is not a number counts as satisfied. Partial: exact for all numeric values and at the API for every history; solver failures are never flagged feasible. |
| C44 | Box bounds of the nonlinear controller act on exactly the addressed decision variables | partial | Violated: a slice starting below -1 is accepted and writes outside of the vector. Partial: without negative slices, every box is the last one set by an accepted call whose slice addresses the step; the slack box is never touched by bound setters. |
| C45 | Soft constraints can be switched on and off | partial | Violated: hard_constraints = false never releases the slack. Partial: hard constraints fix the slack at zero; the slack stays fixed at zero after every history. |
| C46 | The latest optimizer parameters are the ones in force | partial | Violated: a time limit is not removed by later parameters without one. Partial: all other limits, positive time limits, and histories without time limits. |
| C47 | The initial guess of the nonlinear solver is as documented | partial | Violated for cold starts under scaling: the initial point holds the unscaled state. Partial: cold start in full for unit scalings; warm start shift proved for every history and every non-zero input scaling. |
| C48 | When the nonlinear solver fails, the controller keeps the last command | partial | The kept command, flag, status and zero sequence are proved for every history. Starting point: violated when a failed cold start follows a solution and warm start is enabled later; proved otherwise. |
| C49 | Setting a model or constraint replaces the previous one and reports failure | partial | Violated twice: every call of a constraint setter registers one more copy with NLopt, and the setters return true whatever NLopt says. Partial: the last function of each kind is the one used, in every history; which groups are registered; one copy when each constraint setter is called at most once; the flags when NLopt accepts. |
| C50 | Unsupported setters always fail loudly and change nothing | proved | Linear controller: the three unsupported setters throw, change nothing, and no other call throws. |
| C51 | Numerical differentiation leaves the trajectory it perturbs unchanged | proved | Proved for arbitrary user functions: every gradient entry is a difference quotient at the same unperturbed trajectory that gives the value. c51_api_quotients states the same for complete histories of API calls, inside optimize. |
| C52 | Using a component before initialisation is refused | partial | Violated: seven operations which use the dimensions do not check (Mapping::setInputScaling, the two bound getters, the slice forms of setReferences/setExogenousInputs, mapToOutput, get). Partial: every other one refuses after every history without initialisation; validity of the dimensions proved in full. |
| C53 | Nonlinear evaluations do not depend on what was evaluated before | proved | Proved: any two histories ending in the same configuration and measured state give the same values and (when asked for) gradients. |
| C54 | Solver return codes map to one documented result status each | partial | OSQP: violated on codes 3, 4 and -6; partial: every other code. NLopt: proved for every code. |
| C55 | The output of step k contains the disturbance of step k | partial | Violated: the output of step k uses d_{k-1}. Partial: the claim for constant disturbances. |
| C56 | The last result and optimal sequence of the linear controller persist until the next optimize | proved | Proved. |
| C57 | No well-sized history of calls on the linear controller reaches undefined behaviour | partial | Violated (whole-horizon input bounds with ch != ph, parameters of the other kind, rejected problems, short warm-start vectors). Partial: every history without those runs without undefined behaviour. |
| C58 | The nonlinear controller reports the solver's solution | partial | Violated: the first state of the reported sequence is scaled. Partial: everything else in every history; in full for unit state scaling of the measured components. |
| C59 | No well-formed history of calls on the nonlinear controller reaches undefined behaviour | partial | Violated: an equality constraint on a controller with run-time dimensions. Further general fault theorems: parameters of the wrong type, an equality function with no equality constraint (negative slices: see C44). Partial: every other history, whatever the solver does. |
| C60 | Static and dynamic dimensions behave alike | partial | Violated: setEqConFunction only works with compile-time dimensions. Partial: every history without it, for arbitrary arguments, including faults. |
| C61 | A controller can be built for every dimensions setDimension accepts | partial | Violated: construction always fails when the control horizon is longer than the prediction horizon (general theorem). Partial: it succeeds otherwise. |
| C62 | Execution statistics are about exactly the results optimize returned | proved | Proved for both controllers and all histories (the clock is an input). Totality: histories with statistics run exactly when they run without. |
| C63 | With an exact QP solver the linear controller returns the first command of a best plan | partial | Violated: with a control horizon shorter than the prediction horizon one more command than documented is free, so the first command is not optimal. Partial: the exact optimal control problem the code solves, in every configuration; the documented claim for configurations without frozen commands, step-dependent input bounds or increment references and scalar constraints. |
| C64 | Bounds of the nonlinear controller limit the physical inputs and states | partial | Violated: bounds are not divided by the scaling factors, so with input scale 2 a command of twice the bound is returned. Partial: the quotients by the scaling respect the bounds, in every history; the claim in full for unit scaling. |
| C65 | With an exact solver the nonlinear controller returns the first input of a best plan | partial | Violated: inputs both scaled and bounded. Partial: for unit state scaling and inputs which are unscaled or unbounded, the vector handed back is an exact solution of the solver problem if and only if the reported sequences are a best allowed plan. |
| C66 | The linear result is flagged feasible exactly for usable solver outcomes | proved | Proved. Added after a seeded fault (counting a dual infeasible outcome as feasible) survived C20. |
| C67 | Difference quotient steps follow the magnitude of their own variable | partial | Violated for the objective and the inequality constraints (the step of state or input component j follows entry j of the whole matrix in storage order, e.g. the measured state) and for the inputs in the equality constraints (the last input sets all steps). Proved: equality constraints with respect to states and model equations, always; all of it while states and inputs are at most one in magnitude. |
| C68 | Gradient accuracy for smooth user functions | partial | Violated for the objective with a state scaling other than one (chain-rule factor missing, as C39) and for inequality constraints on the input of step ph (as C40). Proved with explicit error bounds: equality constraints and model equations in full, objective with unscaled states, inequality constraints which do not depend on the input of step ph. |
| C69 | The exact linear command is unique and independent of the history | proved | Proved from C63 by strict convexity of the plan cost. |
| C70 | At rest at the target the linear controller keeps the command | proved | Proved for every equilibrium, including constant disturbances, limits and the code's shifted indices. |
| C71 | Only the proportion of the weights matters | proved | Proved. |
| C72 | The reported linear cost is the documented cost of the reported sequence | partial | Violated in every unit: OSQP's objective lacks the constant of the completed square, a plan at its reference is reported with negative cost. Partial: reported cost = cost of the sequence minus the cost of the zero vector. |
| C73 | Relaxing limits never makes the linear problem harder | proved | Proved for every relaxation of state, input, output and scalar limits. |
| C74 | Controllers in one program do not influence each other | partial | Linear controllers (which cannot be copied): proved for every program. Nonlinear ones: proved for programs without copies; violated with copies, which share one optimizer: a call on the copy replaces the results of the original, and destroying one leaves the other with a dangling pointer. c74_uncopied, c74_frame_uncopied, c74_nonlinear_uncopied: in programs with copies the claim holds of every controller which is not itself copied or assigned. |
| C75 | Destroying controllers releases their memory exactly once | partial | Linear: violated, no destructor releases the optimizer (one per constructed controller stays allocated); nothing is released twice. Nonlinear: proved without copies; violated with copies (double release). With copies: an optimizer is allocated exactly until its controller is destroyed by whichever name, after which destroying another name faults (c75_names_partial); an assignment loses the optimizer of the controller assigned to, which is never released (c75_assign_violated). |
| C76 | The linear controller does not depend on the unit of its signals | proved | Proved for every nonzero factor, including negative ones. |
| C77 | The linear controller depends on the model only through its response | proved | Proved for every map of states, invertible or not. |
| C78 | In closed loop the plant follows the reported first step | proved | Proved for every number of steps; limits with the code's indices (C01-C08). |
| C79 | A closed loop at rest stays at rest | proved | Proved for every number of steps. |
| C80 | The solver reads the values and gradients of the functions set | proved | Proved for all four callbacks; what the gradients approximate is C38-C41, C51-C53. |
| C81 | Without limits the linear controller obeys superposition | proved | Proved. The freezing of the commands after the control horizon is linear and stays; limits are excluded because they are not linear. |
| C82 | Without limits the linear controller is solvable and is one linear law | proved | Proved over any ordered field, by nondegeneracy of the cost on the frozen plans; OSQP is an oracle assumed exact. |
| C83 | The linear and the nonlinear controller agree on the same task | proved | Proved for tasks without limits on outputs, with constant limits on the commands and unit input scaling beyond the first step (the conditions under which C63 and C65 hold); both solvers are oracles assumed exact. |
| C84 | A residual of the QP solver is an error of the same size in physical units | proved | Proved, as an equivalence (no row of the problem is scaled) and for the reported sequence and the plant. |
| C85 | A nearly optimal answer gives a nearly optimal command | proved | Proved by strong convexity along the segment to the exact plan; stated with squares to stay within ordered fields. |
| C86 | A linear closed loop that once finds a plan keeps finding one | proved | Proved by induction over the steps: the shifted plan satisfies the next problem. Includes the terminal-equality special case. |
| C87 | What a linear closed loop costs is at most what its first plan costs, and weighted signals converge | proved | Proved: the best cost is a Lyapunov function of the loop. Convergence needs an Archimedean field (such as the rationals or reals). |
| C88 | An exception of a user function during a search is a failed optimisation and leaves nothing else behind | proved | Proved for exceptions derived from std::exception. c88_ordinary reduces such histories to those without exceptions. |
| C89 | If optimize leaves with an exception, the last result and the optimal sequence are the old ones | partial | Violated: the output function is called after the states and inputs of the sequence have been overwritten and before the outputs and the result are (NLOptimizer.hpp:563-606), so the sequence mixes two calls. Partial: exactly what is kept and what is new. |
| C90 | A refused call explains itself in the log | partial | Violated: setInputScale and setStateScale of the linear controller throw without an error message, and setStateSpaceFunction of the nonlinear one returns false with a message of type DETAIL only. Partial: every call of the linear controller which returns false, and every other refusal of the nonlinear one, leaves exactly its one message. |
| C91 | Log settings belong to the controller they are set on, and logging never changes a result | partial | Violated: the logger is a singleton, so that the settings of one controller apply to all (Logger.hpp:50-54). Partial: the last setting made on any controller decides; programs with one controller meet the claim. The rest (transparency, level NONE, totality) is proved. |
| C92 | The log reports every optimize truthfully | partial | The reports are proved. Violated: a failed optimize leaves no error message (NLOptimizer.hpp:526-540 uses DETAIL, LOptimizer.hpp has no message for the status), so that nothing shows at level ALERT. |
| C93 | The states reported by the nonlinear controller are a simulation of the model | proved | Proved for discrete models; unit state scaling is part of the statement (with other scalings the first state is wrong, C35). |
| C94 | A nonlinear closed loop that once finds a plan keeps finding one | proved | Proved: the reported plan, moved one step ahead and prolonged, is allowed in the next step; induction over the steps. Each function set once and accepted, and scaled inputs unbounded (otherwise C49, C64 get in the way). |
| C95 | What a nonlinear closed loop costs is at most what its first plan costs, and the cost of a step becomes small | proved | Proved: the cost of the reported plan falls by the cost of the step made, up to the accuracy of the solver; telescoping. |
| C96 | Relaxing limits, tolerances or constraints never makes the nonlinear problem harder | proved | Proved from the equivalence of solver vectors and allowed plans, under the conditions under which C65 holds. |
| C97 | The exact nonlinear command depends only on the task and the measured state | proved | Proved under the conditions under which C65 holds; an exact answer is assumed, the path of the solver may differ. |
| C98 | Only the order of the costs matters to the nonlinear controller | proved | Proved under the conditions under which C65 holds. |
| C99 | User functions always act on the current values of the variables they read | proved | Proved: the abstract state of the controller depends on the stored functions only through the configuration, which is read in the environment of the evaluation; the environment is constant within one callback and between the feasibility check and the reported outputs. (examples/ugv_ex.cpp works this way with v_pref, which it leaves uninitialised for the first optimize.) |
| C100 | Separate controllers may be used from separate threads without synchronisation | partial | Violated: Logger is one unsynchronised object, and every message, of whatever type and at whatever level, writes its member currentType (Logger.hpp:75); two threads which both call optimize (LMPC), or both construct an NLMPC, race in every schedule. Partial: the logger and its stream are the only memory two threads ever have in common, and there is no race when at most one thread writes messages or sets the logger. That the recorded accesses are all an operation changes and depends on is proved too (c100_writes_*, c100_reads_*). |
| C101 | Controllers in different threads do not influence each other's results | proved | Proved for sequentially consistent execution of the steps (which C++ does not promise once there is a race, see C100): simulation between the shared world and a world of the thread's own, up to the addresses of the optimizers; copies included. A schedule which switches threads only between actions is moreover equal, log and settings included, to the single-threaded program with the same actions in the same order. |
| C102 | Messages of concurrent controllers arrive whole and filtered by the level | partial | Violated: operator<< compares the level with the member currentType, which the log() of another thread overwrites: an error message at level NORMAL loses its text, or a DETAIL message below the level is printed. Partial: when all messages are visible (for instance at level DEEP) or none is (NONE), nothing is lost or added, tags and texts stay in one piece and keep the order of each thread. The claim holds in full for every schedule which switches threads only between actions (one lock around every call). |
| C103 | Floating-point: without disturbances the constraints given to OSQP are exact | proved | Proved over an abstract monotone, odd, idempotent rounding with relative error eps; Rounding.binary 53 (IEEE round to nearest even, unbounded exponents) is an instance. Equality of the feasible sets, not an approximation. |
| C104 | Floating-point: disturbances shift the constraints by their rounding error only | proved | Proved with the error gamma(ndu + 2) * B, B a bound on the disturbance terms without cancellations; gamma n lies between n eps and 2 n eps (c104_gamma). |
| C105 | Floating-point: the objective is the configured cost up to rounding | proved | Proved; the reference of the increments is the one the code pairs (see C03). |
| C106 | Floating-point: non-negative weights give a positive semidefinite Hessian | partial | Violated in every binary arithmetic with at least 3 digits, double included: with y = x + (1 + 2^(1-p)) x' the entry (1 + 2^(1-p))^2 is rounded down, and the Hessian handed to OSQP has a negative direction. Partial: positive semidefinite up to gamma(nu + ny + 2) times the curvature without cancellations; exactly positive semidefinite when the outputs select states (coefficients 0, 1, -1, no state read twice), and in exact arithmetic. |
| C107 | Floating-point: reported sequences are copies of OSQP's answer | proved | Proved; the last part is C84 transferred to floating-point numbers. |
| C108 | Constraint tolerances are the numbers the user passes | partial | Violated: the tolerance parameters are `const float`; the default 1e-10 becomes 14411519 * 2^-57 > 1e-10, so a constraint violated by more than 1e-10 is flagged feasible. Partial: the flag and the solver use the tolerance rounded to single precision (relative error 2^-24), exact for representable tolerances. |
| C109 | Floating-point: the reported average solution time lies between the extremes | partial | Violated for double: after three solutions of 5 ms each the reported average is below the reported minimum. Partial: number, minimum and maximum are exact; total and average up to (1 +- eps)^n and (1 +- eps)^(4n), for every sequence and precision. |
| C110 | Floating-point: the solver gets the values of the user functions at the decision vector | proved | For any rounding with eps <= 1/8 (double included), after any exact history and any rounded evaluations. The twin model rounds after every operation; with the identity it is the exact model (c110_without_rounding). |
| C111 | Floating-point: constraint derivatives are exactly zero where there is no dependence | proved | Inequality, equality and model equations: central differences whose two points differ in the perturbed entry only. |
| C112 | Floating-point: objective derivatives are exactly zero where there is no dependence | partial | Violated for double: the objective is differenced against a value computed before the perturbations, and perturbing and restoring an entry loses small numbers. Partial: slack exactly; states and inputs up to the variation of the objective over 7 eps M, divided by the step. |
| C113 | Floating-point: accuracy of objective and constraint derivatives | partial | Violated for double: the slack step is (2^-26)^2 at slack 0, absorbed by constraint values of 4 and more, so the slack derivative is 0. Partial: explicit bounds for every entry of inequality (not using the last input), equality and objective gradients. |
| C114 | Floating-point: a model equation is reported as satisfied exactly when it holds | partial | Violated for continuous models (a state of 2^60 which should grow by 1). Partial: zero exactly when the equation holds for discrete models; relative error of two roundings (discrete) and six roundings of the terms (continuous). |
| C115 | Floating-point: accuracy of the derivatives of the model equations | proved | Error bounds for all non-zero entries; with C111 this covers the whole row. |
| C116 | Arguments of the wrong size are refused | partial | Violated: no size is tested by the library. Partial: a call on whose sizes the code insists (through an Eigen assertion) is never carried out with wrong ones (c116_tested_partial); whole-horizon references and disturbances are accepted with any sizes and, if unusable, no later optimize returns (c116_stored_partial), superfluous columns being ignored (c116_beyond_partial); scalar-constraint multipliers are only measured together (c116_split_partial). |
| C117 | The Python module offers the C++ API | partial | Violated: whole-horizon references cannot be set (the slice overload is bound twice; TypeError), and setting an equality constraint ends the program (run-time dimensions); solver parameters cannot be constructed and default tolerances are not exported. Partial: every other call has the effect and the result of the C++ call (c117_linear_partial, c117_nonlinear_partial), any Python call whatever is a C++ call of the same method or changes nothing, and any Python program is a C++ program (c117_programs_partial, c117_nl_programs_partial). |
| C118 | Printing the statistics shows the recorded times and leaves the stream as it was | partial | Violated: once there is a solution the total time is printed with two decimals (setprecision(2) of the percentages stays in force: 4 ms in total are printed as 0.00), and the stream stays in fixed notation with two decimals. Partial: the text is otherwise the report, each numeral the nearest one (c118_report_partial, for the text read back as numbers), the format left behind, what is printed before the first solution (the largest double and its negative), the printed shares add to 100 up to rounding. |
| C119 | Results of user functions with a wrong length are reported | partial | Violated: the length is never compared with the dimension. An evaluation of the function breaks a precondition of Eigen (c119_reported_violated) and the feasibility check takes the entries that there are, so an inequality function which returns an empty array makes every result feasible (c119_unseen_violated). Partial: right lengths give the same outcome (c119_right_partial), no optimize which needs a function that always returns a wrong length returns (c119_wrong_partial), what the flag means for any lengths (c119_flag_partial). |
| C120 | A program which chooses its calls from what it was shown never meets a fault | proved | c120_linear and c120_nonlinear are about arbitrary programs, c120_loop about every control loop, c120_script and c120_flagged about the result of a loop; the other theorems are the example programs. The plant of a loop is any function of what was shown. |
| C121 | Control loops with obstacles and set points which move | proved | c121_program and c121_script are about arbitrary programs, c121_flagged about any history. The search itself is an oracle: the theorems say what a flag means, not that a feasible sequence is found. The example reads the preferred velocity before it sets it (ugv_ex.cpp:158 after 146); c121_ugv holds for any contents. |
| C122 | What the test suite asserts about single components holds for all sizes and data | proved | The test 'scalar constraints' of the linear controller is C07. The tests that run a whole controller (convergence of examples) are not part of this property: see C120 and C121. The test of the deviation asserts 0.081 with margin 0.01 for 0.1, 0.2, 0.3; the example beside c122_three_solutions shows that the sample deviation 0.1 would fail it, so the test enshrines the defect of C26. The text of a status outside the enumeration is not modelled. |
| C123 | Signals that play no role do not matter, and signals that are not numbers stay where they belong | partial | Violated for NaN and infinite values (three claims: NaN reference, infinite reference, NaN disturbance); proved for numbers (c123_unused_partial in doubles, c123_unused_asked at the API in exact arithmetic), and the exact reach of a NaN is proved (c123_spread). The settings (model, weights, bounds) are numbers or infinite bounds; what OSQP does with NaN is outside the model. Finite arithmetic is exact here and the two zeros are identified. The increment reference of step k is weighed with the weight of step k+1 (and that of step 0 also with that of step 0), see duUsed. |
| C124 | The nonlinear solver is given a starting point it takes | partial | Violated in both forms: c124_measured_violated (measured state outside the limits of later steps, problem solvable) and c124_shift_violated (limits on the first step only, second call of a loop refused). Proved: iff-characterisations for cold and warm start, the loop theorem for nested limits, and that refusals repeat for ever. The rule of nlopt_optimize about starting points is the specification StartRule; it is documented NLopt behaviour, not part of /repo. |
| C125 | In floating point too, the nonlinear solver is given a starting point it takes | partial | Violated in double for scalings which are no powers of two (c125_saturated_violated: an input at its bound). Proved: what exactly is rounded (c125_rounded_start), the error bound, exactness for scalings commuting with rounding (1, powers of two: double_pow), a margin condition, and that such refusals repeat for ever. No overflow or underflow. |
| C126 | A user function which is not a number somewhere spoils only the derivatives that see it | partial | Violated (c126_objective_violated: another input's probe; c126_model_violated: another component of the state equation). Proved: exactly which quotients each value and derivative comes from, for objective, constraints and discrete/continuous state equations (c126_*_partial), consequences, and agreement with the exact model. Numbers are computed exactly here (no rounding, no overflow); decision vector and settings are numbers. |
| C127 | User functions are looked at only where the limits keep the plan | partial | Violated at the limits (c127_limits_violated: a state at its upper bound; c127_slack_violated: slack zero). Proved: widened limits (c127_limits_partial), distance from the limits (c127_margin_partial) and the general form for any scaling (c127_near_partial). |
| C128 | A scaling factor which is accepted leaves the problem made of numbers | partial | Violated by zero scalings (c128_start_violated, c128_model_violated); what happens with them is proved for every history: c128_input_zero, c128_input_stuck, c128_state_zero (values), c128_state_derivatives, c128_state_stuck. Proved without zeros: c128_start_partial, c128_evaluations_partial. |
| C129 | A value which is not a number stays where it belongs in the starting point | partial | Violated (c129_spread_violated; c129_spread is what happens instead, for every history). Proved: c129_place_partial. |
| C130 | User functions are called at known points, in a known order and number | proved | c130_objective, c130_inequalities, c130_equalities, c130_model give the calls as lists and that the programs compute what Objective.lean and Constraints.lean do; c130_counts their numbers; c130_exceptions where exceptions leave. |
| C131 | User functions are shown only plans which the controller could make | partial | Violated (c131_held_violated, c131_measured_violated; c131_not_held and c131_not_measured say that it happens in every history). Proved: c131_measured_partial, c131_values_partial. |
| C132 | One optimize calls user functions only as the solver asks, then for one check and one report, and ends at the first exception | proved | c132_trace gives the calls as a list and that the program is optimize; c132_plan the arguments after the search; c132_tail their number; c132_returns, c132_search_throws, c132_check_throws, c132_report_throws the exceptions, by the phase of the first one; c132_contained that none leaves with inequality constraints. How NLopt reacts to a throwing callback (it asks nothing more and throws) is assumed, as in Throwing.lean. |
| C133 | User functions with memory of their own cannot make the controller fault or change what it asks | proved | c133_total and c133_answers: no fault; c133_task, c133_independent: what the solver is given, compared with functions without memory and between any two sets of functions; c133_calls: the calls up to the outputs shown (bare); c133_result: the result; c133_memory: functions whose memory does not show. Proved on the programs of C130 and C132 by running them with a memory. |
| C134 | User functions which remember and may throw: nothing but an exception of the reported outputs gets out, and the first exception is the last call | proved | c134_total, c134_answers: no fault; c134_calls, c134_first_throw: the calls and the one which throws; c134_caught, c134_escaped, c134_no_throw, c134_result: the three ways to end; c134_task: what the solver is given; c134_memory, c134_history, c134_setters: what is remembered; c134_escape_despite_inequalities: an escaping exception which C132 excludes for functions without memory. Exceptions not derived from std::exception are not caught by the code at all and are not modelled. c134_agrees_returning, c134_agrees_memoryless: the model runs as those of C133 and C132 where they overlap. |
| C135 | User functions which ask their controller for its reports see those of the previous optimize, except for a half-written sequence at the end | partial | c135_reads, c135_seen: which reports every call sees, for every way the optimize may end; c135_last_result; c135_no_output_partial, c135_others_partial: when the claim holds; c135_returned, c135_kept: when reports change. c135_sequence_violated: the output function sees new states and inputs with old outputs (NLOptimizer.hpp:589-591 writes two members before it calls the function for the third). Functions which call optimize or a setter of their own controller are not modelled. |
| C136 | Controllers set up by one thread may then be used from separate threads without synchronisation | partial | Violated: c136_violated (two threads which only let a linear controller each optimize race on the logger; c136_linear: in every schedule which lets them finish; c136_messages_race: so do any two threads which write a message), c136_copies_violated (a nonlinear controller and its copy, one setter call each, no message: a race on the shared optimizer). Partial: c136_only_logger_partial (if the set-up makes no copies across threads, a race can only concern the logger), c136_quiet_partial (no race if at most one of the threads writes messages or sets the logger). Proved: c136_as_alone, c136_runs, c136_whole_actions. C100-C102 are the case without set-up. |
| C137 | User functions of a nonlinear controller may use other controllers | partial | c137_uses (over a whole history), c137_optimize (within one call), c137_program (the steps are an ordinary program), c137_linear (C74 and with it all properties of histories apply to linear controllers inside), c137_nonlinear_partial (likewise for nonlinear controllers inside; missing: programs which copy them, as in C74), c137_nonlinear_uncopied (the same in programs with copies, for a controller which is not itself copied), c137_sound, c137_sound_optimize (no fault), c137_answers, c137_transparent (the outer controller sees the answers only). The functions do not call setters or optimize of the controller which calls them; an inner step which faults counts as an exception after which the inner controllers are lost. |
| C138 | Linear and nonlinear controllers of all sizes in one program do not influence each other | proved | c138_alone (any family of classes), c138_linear, c138_nonlinear (with them all properties of histories apply), c138_runs (a program without copies runs if every controller alone does), c138_inside, c138_inside_nonlinear (within user functions). A call of a member function of another class counts as a fault (it does not compile). Copies of nonlinear controllers share their optimizer (C74, violated). The same for a linear controller in a program with several threads, each with controllers of its own, whatever the schedule (c138_threads). |
| C139 | A nonlinear controller and its copies are one controller with several names | proved | c139_alone, c139_names, c139_frame, c139_history (with it all properties of histories apply to copied controllers), c139_runs (no fault), c139_inside (within user functions), c139_classes, c139_mixed (in programs which also have linear controllers and nonlinear ones of other dimensions). This says what copies do; that a user expects them to be independent, and that this is violated, is C74. Linear controllers cannot be copied. The execution statistics, which every object holds by value (IMPC.hpp:296), are not part of this model (C62). A nonlinear controller and its copies which belong to one of several threads: c139_threads, whatever the schedule. |

139 properties: 69 proved, 70 partial (each with the reason in the table).

## Seeded faults

806 edits of the model were tried in a scratch copy (`seeded/LOG.jsonl`); after 790 of them at least one property theorem no longer builds. The 16 others are either harmless edits (tried to check the harness) or led to a tightened or new theorem, as the log says.
