# libdwbc: formal model and proofs

Subject: saga0619/libdwbc (C++), pinned source in `/repo`. Nothing of it is built or run here; every
model definition was written by reading the source and cites file and lines.

## 1. Trusted base

* Lean 4.33.0's kernel, and Mathlib as installed.
* Axioms: at most `propext`, `Classical.choice`, `Quot.sound`. No axiom is added here; no `sorry`,
  `native_decide` or `bv_decide`.
* The reading of the C++ code: each definition has a comment with the source lines it models.
* Idealisations that hold throughout:
  1. `double` is modelled as the reals (`ℝ`), so rounding, overflow and denormals are not modelled.
     Where the code would produce `inf`/`NaN` by dividing by zero or inverting a singular matrix, the
     model returns `none` (or the theorem has the divisor-nonzero hypothesis explicitly).
  2. Eigen dynamic matrices are Mathlib matrices with finite index types. A floating-base vector of
     length `6+n` is indexed by `Fin 6 ⊕ n`: `inl` = the six base rows, `inr` = the joint rows.
     Shape errors that Eigen reports by assertion are impossible in these parts, and are modelled as an
     explicit undefined-behaviour outcome where sizes can go wrong at run time (registries, QP wrapper,
     tree editing).
  3. `CompleteOrthogonalDecomposition::pseudoInverse` is modelled as the exact Moore–Penrose inverse
     (rank threshold ignored; C77 models the threshold, says exactly when it changes the result, and what then
     happens). Its existence and uniqueness are proved, not assumed.
  4. RBDL kinematics (mass matrix, Jacobians, poses) enter as inputs: an arbitrary symmetric positive
     definite mass matrix, arbitrary Jacobians. The editing models (C36-C38, C70-C72) also rest on what
     RBDL's `Model()`, `AddBody`, `GetBodyId`, `Body::Join` and `SpatialTransform` do to the tables and
     frames they model; RBDL's source is not part of the repository, the definitions follow RBDL 3.
  5. qpOASES / OSQP enter as an arbitrary answer, with the assumption used by the theorem stated in its
     hypotheses: "success means the point is feasible", or, where needed, "is an exact minimiser".
  6. Threads (C79) are interleaved step by step. C++ gives a program without data races only such
     executions, and `C79_exclusive` proves that the two threads never use the shared object at once;
     `std::atomic_flag` and `std::atomic` operations are single steps.
  7. Eigen's quaternion, angle-axis and `eulerAngles` functions (C18-C20, C44, C80) are written down from
     Eigen 3.3; Eigen's source is not part of the repository.
  8. Except for C83 and C89, statements about accelerations and contact forces are about a robot whose velocity terms
     vanish (`Spec/Dynamics`: no Coriolis or centrifugal force, no drift of contacts and tasks). The control
     functions, C57's hierarchical QP apart, have no such terms either. C83 says exactly what a moving robot
     does instead, C89 how its energy changes.

## 2. Layout

* `lean/Verif/Model/*.lean`  definitions, function by function, with source citations.
* `lean/Verif/Spec/*.lean`   small independent specifications (physics, trees, registries).
* `lean/Verif/Lemmas/*.lean` helper lemmas.
* `lean/Verif/Props/*.lean`  property theorems, named `Cnn_...`, each with an `example` beside it that
  meets its hypotheses.

## 3. Plan per property

| id | model | proof |
|----|-------|-------|
| C01 | `CalculateContactConstraint`, `CalculateContactForce`, `P_C` as matrix functions | existence and uniqueness of `(qdd,F)` by block elimination with `Λ = (J A⁻¹ Jᵀ)⁻¹` |
| C02 | same | projector algebra; finiteness iff `Jᵀ` injective (positive definiteness) |
| C03 | `CalculateGravityCompensation` | range inclusion `W W⁺ S P = S P` from `P A P = P`, `A` positive definite |
| C04 | `V2`, `NwJw` | `V2 W = 0 → V2 S P = 0` |
| C05 | return value of `CalculateContactConstraint` | dimension count of `ker W` |
| C06 | `CalculateJKT`, one level | `P = P Sᵀ W⁺ S P` when the base is determined |
| C07 | `CalculateTaskNullSpace` chain, `CalcTaskControlTorque` without QP | induction on the levels; counterexample at three levels |
| C08, C09 | QP rows of `CalcSingleTaskTorqueWithQP`, level loop | induction on the levels; row-by-row reading |
| C10 | `CalcContactRedistribute` QP branch | feasibility rows; optimality of zero |
| C11 | `CalcContactRedistributeR` QP rows | counterexample for the upper limit; lower limit proved |
| C12, C13 | constraint matrices | equivalences with the physical inequalities |
| C14 | `ContactRedistributetwomod` | algebraic identity; case analysis on the clamps |
| C15 | `getZMP` | weighted mean when all contacts before an active one are active; counterexample otherwise |
| C16, C17 | splines | field identities, `HasDerivAt` |
| C18–C20 | rotations, skew, `GetPhi`, `rotationCubic` | trigonometric and cross-product identities |
| C21 | filter recurrence and `calc2lpf` state machine | fixed point; Jury/Lyapunov stability; counterexample for `calc2lpf` |
| C22, C23 | `Link::AddLink`, spatial inertia | 3×3 identities, fold over lists |
| C24, C25 | `CalcAngularMomentumMatrix`, COM part of `UpdateKinematics` | finite sums |
| C26 | `CalcVirtualInertia`, `CalcCOMInertia` | loop invariant on the worklist |
| C27–C30 | registries as state machines with explicit undefined behaviour | invariants by induction on op lists; counterexamples for the defects |
| C31 | QP wrapper state machine, solver a parameter | refinement to "latest problem" |
| C32–C34 | HQP levels as a recursion over the list of levels | induction |
| C35 | JACC QP rows | reading of feasible points; for the success condition, existence of a minimiser by the polyhedral least-squares argument of C10 and induction over the levels |
| C36–C38 | link/joint/task tables as lists | invariants; counterexamples for the defects |
| C39 | index loops of `ReducedDynamicsCalculate` | permutation statement; counterexample for shared chains |
| C40, C41 | reduced matrices | block matrix identities |
| C42, C43 | byte list / vector models | round trip, bijection |
| C44 | PD law | identities; Lyapunov functions and an argument after Barbalat for the arrival at the target, Picard-Lindelöf for the existence of such motions |
| C45 | copy of flags and tables | counterexample for the source being overwritten |
| C46 | threaded variant | counterexamples; top level guarantee |
| C47 | QP task control, shapes of the contact null-space blocks | exact condition on the number of contact rows |
| C48 | QP task control loop | zero is optimal at every level; conversely a level left unchanged is a safe torque, so that the condition is exact; the same over `reducedTaskTorqueQPRec`, by induction over the levels with the reduced torques carried back to the full robot (`C48_reduced_kept_iff_partial`) |
| C49 | closed-form redistribution, choice of the contact pair | reading of the pair; counterexample for contacts 2 and 3 |
| C50 | `AxisTransform2V` | Rodrigues identities; counterexample for opposite directions |
| C51 | `spatialTransformMatrix`, `GetAdjointMatrix` | block matrix identities |
| C52 | `UpdateTaskSpace`, `Link::UpdatePos/UpdateJac/GetPointJac` | loop invariant on the row offsets; derivatives of the tracked point |
| C53 | `TaskLink` setters as a state machine | last writer per member, by induction on the calls |
| C54 | both redistribution branches as repeated calls on `torque_contact_` | QP: feasibility after the first call and minimality at zero; closed form: the split depends on the resultant only; induction on the number of calls |
| C55 | `ReducedCalcTaskControlTorque` without QP, `CalcJKT_R`, `CalculateJKT_R` | acceleration caused by a stack as a product of null-space projectors, computed for the full and for the reduced stack by induction over the tasks |
| C56 | classification loop of `ReducedCalcTaskSpace` as a state machine over calls | induction over the history of calls |
| C57 | the levels that `ConfigureLQP` sets up, solved by `solveSequential` | every level has an exact solution (Fourier-Motzkin: a linear image of a polyhedron is closed); optimality of each level restated for accelerations and forces; two concrete robots for the negation |
| C58 | `ReducedCalcTaskControlTorque` with QP (`CalcSingleTaskTorqueWithQP_R`, `_R_NC`) | feasibility of each QP restated for the contact force of the full robot through the C41 identities; induction over chain tasks; a concrete robot for the negation |
| C59 | `NwJw_R`, `ReducedCalcContactRedistribute` with `CalcContactRedistributeR` (QP mode) | the internal torques of the reduced and of the full model coincide; existence of an exact solution by Fourier-Motzkin; optimality restated for the full robot |
| C60 | QP loop of C08/C09 with `Solver.Complete` | at each level below the first the correction "minus the command" keeps the safe torque above it, so induction over levels; existence of an exact solution by Fourier-Motzkin; safe torques stated with `Motion`, `ContactsHold`, `WithinLimit` |
| C61 | `torque_limit_set_`, `torque_limit_`, `model_dof_` on top of the model-modification machine of C36 | induction over the history; consequences through C08 and C60 |
| C62 | the QP of C35 over an arbitrary joint index with per-joint torque bounds, instantiated with `A_R`, `G_R`, `J_CR`, task rows `J_task_ * J_R_INV_T.transpose()` | motions of the reduced system are the projections of motions of the robot (C40); levels by the induction of C35; Gauss' principle for the cost |
| C63 | the function as a QP over accelerations, torques, plan deviation and slack of the free joints, with the size checks and `Ja`; the plan is any motion of the reduced system | the base rows of the mass matrix at the free joints are an invertible matrix times `J_I_nc_`, so the joined motion satisfies the robot's dynamics iff base acceleration and plan deviation vanish; first-order condition of the QP for the priority claim |
| C64 | Reduced controller as `lqpRun` over the reduced model with the task loop's level index; the free-joint controller as its two levels (`Model/ReducedLqp`). | `C64_undefined_iff`, `C64_free_undefined_iff` (when the level index runs out of range); `C64_reduced_plan`, `C64_chain_torque`, `C64_levels_partial`, `C64_free_levels_partial`; `C64_motion_iff` decides when the joined plan is a motion; negations `C64_plan_lost`, `C64_hand_stays`, `C64_load_refused`; `C64_rest_held_partial`, `C64_task_value`. |
| C65 | The object as a list of level slots; `ConfigureLQP` appends levels and writes them by index, with the size assertions (`Model/HqpObject`); histories are lists of configurations. | `C65_new_object`; `C65_accepts_iff` (induction over the history: exactly which further configurations pass the assertions); `C65_level_count`; `C65_first_answers_partial`; negation `C65_removed_task_followed`. |
| C66 | The members `qp_H_, qp_g_, qp_A_, qp_ubA_` of every level as persistent data with sizes, the block writes of `solveSequentialSingle` in order; a write outside is a distinct outcome (`Model/HqpWarm`).  Histories: one call with `init = true`, then calls with `init = false`. | `C66_same_as_fresh_partial` (invariant: the members are zero wherever the layout does not write; induction over levels and calls), `C66_answers_partial`; `C66_undefined_iff`; negations `C66_constraint_violated`, `C66_writes_outside`. |
| C67 | State machine over a heap of solvers and named objects; the destructor, memberwise copies and vector growth of the code; deletion or use of a deleted solver is a distinct outcome (`Model/HqpOwner`). | Invariant over all histories: `C67_safe`, `C67_all_alive`, `C67_independent_partial` (no copies); negations `C67_never_released`, `C67_copy_shares`. |
| C68 | The branch `hqp = false` of `CalcContactRedistributeR` with its test on `co_dof`, the fixed-size vectors and the copy of the first `contact_dof_` places (`Model/ReducedClosed`); the closed form itself is that of C49. | Twelve chain joints: both models see the same contact force, and a balanced change of force is determined by its second wrench (`C68_same_as_full_partial`, `C68_forces_partial`).  Negations `C68_not_twelve_joints`, `C68_other_contacts`. |
| C69 | The QP loop of C58 and the redistribution of C59, no new model; `RSafe` states safe torques with `Motion` of the full robot, `ContactsHold` and the limits. | Correction "minus the command" keeps the safe torque of the level above, so induction over the levels, free tasks included (`C69_never_fails_partial`, `C69_fails_iff_partial`); what is left behind by induction (`C69_failure_zero`, `C69_reduced_torque_kept`).  Negation `C69_after_failure`: two feet, a solver that gives up on the second task only. |
| C70 | `Model/ReducedMod`: the tables of `Model/LinkMod` with `joint_id_` as joint record and `link_num_`, every access of the index computation checked | Tables after a history by induction over the history; agreement of the checked computation with `Model/ReducedIdx`; negations for every removed or added link |
| C71 | `Model/FixGeom`: joint frames, revolute and sliding joints, angles, bodies, the joint records (with never-written fields), forward kinematics with a joint rotation as parameter | Induction over the link number for a relabelling of links that keeps frames and parents; parallel-axis computation for the joined body; negations for the never-written records and the untransposed frame |
| C72 | `Model/QLayout`: q indices, places of the fourth quaternion coordinates, sizes, `lambda_q`, update order; RBDL's `AddBody` as far as it writes them | Invariant (indices are prefix sums) by induction over the history; prefix sums tile the vector; negations by the same sums |
| C73 | `Model/JacDot`: the columns from the joint axes, for the Jacobian and for `GetJacDot` | Derivative of the column of the joint on the world, whose axis is constant; uniqueness of derivatives gives the negation for every motion |
| C74 | `Model/Session`: the members as a state, the calls as steps, `none` for undefined behaviour | Invariant over histories (registered contacts and tasks do not change), then equality of the cycle from two states with the same registrations; safety from C10 and C01; negations by induction over histories and by a concrete robot |
| C75 | `Model/BridgeSession`: the bridge calls as sequences of the calls of `Model/Session` | Simulation between robots that differ in the limit only, over any history; the first task's acceleration from C07 and C49, then unboundedness |
| C76 | `Model/ReducedSession`: the members of both models as one state, every full and reduced call as a step, undefined where a call reads a member nobody wrote or of another size | Simulation between states with the same registered contacts, tasks and limit over any history; what a cycle reads and writes in closed form (`CycleParts`); C40, C41, C55 and C59 for the physics; a concrete robot for the negations |
| C77 | `Model/CodRank`: Eigen's column-pivoted factorisation step by step (residuals, pivots, projector on the columns taken), the rank by threshold, the pseudo-inverse of what is kept; contact space and task gain with it | Invariant over the steps (orthogonal projector, range in the columns, residual zero for columns taken, pivots falling); rank by trace; exactness iff the rank found is the rank; the effects on gravity, tasks and the contact computation as equivalences; diagonal robots for the negations |
| C78 | `Model/Command`: the command of a cycle (gravity compensation; with the task stack; with QP task control) as a function of the state, `none` where undefined; `Spec/Continuity`: what it means that a result that may be undefined varies continuously | Pseudo-inverses of symmetric matrices are continuous where the rank is locally constant (projector from an invertible matrix), and the projector is continuous only there (rank = trace), so continuity of gravity compensation is equivalent to a constant number of free base motions; induction over the task stack; concrete robots for the negations |
| C79 | `Model/Handover` (threads as program counters, `tlocker`, interleaving steps), `Model/HandoverRobot` (the calls), `Spec/Handover` (the sequential program) | invariant listing the reachable pairs of program points with the objects of the sequential run at that point; progress measure counting effective steps; data part from the copy model of C45 |
| C80 | `Spec/Turned`, `Spec/Carried` (one robot in two descriptions), `Model/Heading` (Eigen's `eulerAngles(2, 1, 0)`, redistribution without QP with the angle the code takes), `Model/Command` (cycles) | change of base coordinates and orthogonal mixing of contact rows carried through contact space, task space, the QPs (same feasible torques, same cost, unique minimiser) and the closed form; PD laws by linearity of the spline in its boundary values and uniqueness of angle and axis; negations by explicit robots |
| C81 | `Model/Feet` (a registered contact with its Jacobian, the switched-on ones stacked in the order of registration) | a permutation of a list of contacts is an orthogonal permutation of the contact rows; the change-of-description lemmas of C80 carry it through contact space, task space and the QPs; the QP of the redistribution weighs only the forces above the last six rows, so it is invariant when the last switched-on contact is the same, with an explicit robot where it is not; the closed form by mirroring the bounds on the split ratio (`Lemmas/SwapFeet`) Hierarchical controller (`Props/OrderLqp`): the mirror image of the mirror image, with the contacts reordered the second time (C91). Joint-acceleration QP (`Props/MirrorJacc`): admissible motions correspond, and each level has one acceleration. |
| C82 | Compose the link loop of `UpdateTaskSpace` with the control cycle (Model/Level); the loop writes, link by link, blocks that do not depend on the other links; rows permuted by a permutation are rows mixed by an orthogonal matrix, so C80's relation applies with the robot itself; invertible recombinations by the closed form of the torque map. | Registration order: no effect (with and without QP, exact solvers). Units: no effect without QP when the contacts determine the base; false with the QP, and false without it when they do not (negations). Hierarchical controller: order and units of rows in `Props/OrderLqp`; sums of rows change the answer (`Props/RowsLqp`). Joint-acceleration QP (`Props/TwinJacc`): an orthogonal change of rows keeps the effort of a level, and each level has one acceleration. |
| C83 | Newton's and Euler's equations link by link (`Spec/Moving`), contracted to the generalised coordinates; the models of C01-C06 and C34 unchanged. The difference between the moving robot and the robot at rest is the response to the velocity forces and to the drift of the contacts; it does not depend on the torque. | Exact error of force, acceleration and task; growth with the square of the velocity; exponential approach to a ball around the target by a Lyapunov function. The property itself is false (negations with two physical robots). |
| C84 | The models of C01-C10 unchanged; the second robot is given entry by entry (`Spec/Renumbered`): permuted and signed rows and columns. Joint coordinates `v = D v'`. | Every intermediate matrix follows the change of coordinates; the pseudo-inverse does if `D` is orthogonal, or if the matrix is invertible. The null-space factor of the QPs is shown not to depend on the basis the decomposition finds. For units the property is false on two feet (negation: a body on two equal legs). Hierarchical controller (`Props/RenumberedLqp`): moves, contact, energy and misses of every level correspond one to one, and each level has one answer. Joint-acceleration QP (`Props/TwinJacc`): likewise. |
| C85 | The models of C01-C10, C21-C23 and C35 unchanged; the second robot has `mu A`, `mu kappa G`, limits `mu kappa L` and commands `kappa f`. | Every intermediate matrix is multiplied by a power of mu; the null-space factor is unchanged; feasible sets and costs of the QPs scale. Constants with a dimension break the property in `getZMP` (0.001) and in the joint-acceleration QP (weight 100 against the mass matrix): negations by witness.; `Props/ScaledLqp`: the hierarchical controller of robots with different units of mass and time, level by level by uniqueness of the accelerations |
| C86 | The models of C01-C09 unchanged; `Spec/Effort` defines the sum of the squared torques and the energy of acceleration of any motion. | Commands lie in the range of the pseudo-inverse, so they are orthogonal to every torque without effect. The motion of a stack is orthogonal, in the metric of the mass matrix, to every motion that moves neither contacts nor tasks: induction over the levels, for the QP over the loop with an invariant on the null-space matrix. The torque of the QP is not minimal: witness. Hierarchical controller (`Props/EffortLqp`): the cost of a level is miss plus energy, and equal task accelerations miss alike. Joint-acceleration QP likewise (`Props/EffortJacc`). |
| C87 | Spec.HeldBetweenCalls: calls at t1, t1+h, …, constant acceleration in between; the command is the model's posPD at each call | a second-order recurrence; energy (1+D)(x'^2+x^2)-2Txx' decreases; conversely left eigenvectors and the Casoratian give runs that do not settle |
| C88 | Spec.QP.SolvedWithin ε δ and Spec.CarriesWithin ε; the model's QP loop with a solver parameter that is only accurate up to these | row by row as C08/C09/C48, with induction over the levels; a solver using its tolerance at the first level for the negation; for the hierarchical controller, staying put is within the tolerance at each level, and the contact level's cost is compared with standing; for the joint-acceleration QP, the last level's answer is within the tolerance for the next one, and the equations of motion with fixed contacts have a bounded inverse; the reduced model's rows as C58/C69 with the tolerance; by induction over the levels above, every level's change of its command is the least up to the tolerance |
| C89 | Spec.kineticEnergy, jointPower and LinkRun (a link followed through time, Newton-Euler as in C83); the torques of the models of C03, C04, C07 | power of a force on a motion that keeps the contacts depends on the acceleration it causes only; derivative of the energy link by link; constant because the derivative vanishes |
| C90 | true and assumed mass matrix and weight side by side in Spec.Motion; the models of C01, C03, C06 with the assumed ones | subtract the planned from the true motion; the difference is a generalised force; power along motions that keep the contacts |
| C91 | Spec.Mirror: the image of a mass matrix, weight, Jacobian, torque, contact force, link; models of C01, C03, C06, C08, C11, C25 | the mirror is a change of the base coordinates (C80), of the contact rows (C80) and a renumbering of the joints (C84); registering the feet in the other order is C81; a concrete symmetric robot for the disagreement Hierarchical controller (`Props/MirrorLqp`): what each level may do and what it costs is the same in the mirror, and each level has one answer. Joint-acceleration QP (`Props/MirrorJacc`): likewise. |
| C92 | `Model/TaskRecord`: the members of `TaskSpace` that task control writes, both functions that solve one level, and the loop that carries the records | refinement: the loop without the records is that of C10; induction over the levels for success and failure; a limit that no torque respects, and a concrete robot, for the disagreements; `C92_reduced_levels_least_partial`: with the reduced model the change recorded with a chain task below chain tasks is the least |
| C93 | `Model/TaskRecord` and `Model/ReducedRecord` (the recorded changes of the commands), with `Motion` for what the first task does | first-order condition of the least-change problem on a convex set, against standing still and against the answer of the other call; induction over the levels, each of which leaves a torque that the next could keep; for the pair of calls, the changes above are equal because the least change is unique; the same first-order argument with the energy term for the joint-acceleration QP (`Props/ModerateJacc`) and the hierarchical controller (`Props/ModerateLqp`); `C93_within_direction`: with a solver exact up to a tolerance the first command hardly turns |
| C94 | `Model/QPControl`, `Model/JaccQP`, `Model/HQP` with `Motion`, `SafeTorque` (Props/QPFail), `accelEnergy` (Spec/Effort), `massMatrix` and `mass` (Spec/Momentum) | QP: the task torque causes the least-energy motion with the command, so a safe torque causing it differs by one that moves nothing and the QP could keep the command; weak joint: exchanging the joints leaves energy and task unchanged, so the controller moves both alike. JACC and LQP: first-order condition against standing still; König's inequality for the centre of mass |
| C95 | `Model/QPControl`, `Model/Redistribute`, `Model/JaccQP`, `Model/ReducedQP` and the record-carrying loops of C92, run for a robot and for the same robot with other limits and contacts (`loosened`); `LimitLe`, `ContactLe` compare them | Feasible sets grow with limits, feet and friction; equal misses make the old answer a minimiser of the new QP too, so by uniqueness of the command both calls go on from the same torque: lexicographic induction over the tasks. Unused room: a looser minimiser admissible for the tighter QP is its minimiser, strong induction on levels, for each controller. Negation: two joints, a task on their sum and one on the first |
| C96 | `Model/QPControl` and the record-carrying loop of C92 run with two stacks of commands and with their blend | The set of torques within limits and contacts is convex and the torque is affine in the commands, so zero change is feasible and hence chosen at every level: induction over the tasks. Scaling: the blend with the zero commands, which are followed by a robot that can stand. Negation without the hypothesis: two joints with a limit. Reduced model: the same induction over `rqpFromRec` for tasks on the contact chains.; `Props/BlendWeighted`: the joint-acceleration QP and the hierarchical controller follow no command but rest, by the first-order condition towards a standing motion |
| C97 | `Model/BridgeNew`: the constructor on the registries of C27 and C29, with Eigen's comma initialiser written out value by value | Induction over the values for the initialiser, then the exact condition under which the constructor is defined, the posture and the registries it leaves. Negations: more than 33 joints without assertions; a robot without link 15 |
| C98 | `Model/Feet.setContacts` on the registered contacts of C81, with forces given contact by contact so that different contact sets can be compared | The stacked transposed Jacobian is a sum over the contacts switched on; unloaded terms drop out. Uniqueness of the force (C01) and of the torque on one contact for the equivalence; C60 for the QPs; C07 for the first task. Negation: lifting the loaded one of two feet |
| C99 | `updateKinematics`, `contactForce`, `gravityTorque` and `getZMP` together, on a list of moving links; the feet are described by how they move with the base (`Spec/Weight.lean`) | Power of all forces in a virtual rigid motion of the base: `C99_balance` (any torque, starting from rest, whatever acceleration results), `C99_weight`, `C99_gravity`, `C99_held_iff` (which contact forces some torque can hold), `C99_zmp_partial` (the cart-table equation) and `C99_zmp_still_partial` for feet at one height that press and are registered first; false for feet at different heights: `C99_step_zmp_off` |
| C100 | `updateKinematics`, `calculateContactConstraint`, the constraint rows, `redistribute`, `calcTaskControlTorqueQP` and `getZMP` together; `Flat`, `sole` and `supportPolygon` in `Spec/Stance.lean` | Centre of pressure of each foot gives a convex combination (`C100_motion`); the points that can be carried form a convex set containing every sole (`C100_stands_iff`); with the exact success conditions of C10 and C60: `C100_redistribute_iff`, `C100_topples`, `C100_never_fails`, `C100_zmp`; the same with the reduced model, by C59 and C69 (`C100_reduced_task_control`, `C100_reduced_redistribute_iff`, `C100_reduced_never_fails`), and for JACC_QP (`C100_jacc`); false on one foot, where redistribution never checks: `C100_one_foot_unnoticed` |
| C101 | `updateKinematics`, `calculateContactConstraint`, `calculateJKT`, the constraint rows and `taskControlQPRec` together; `CanSupply` and `Grips` in `Spec/Supply.lean` | Converse of virtual power about the centre of mass (`C101_forces_iff`, `C101_motion_iff`); centre of pressure and convexity with a tilted force (`C101_level_needs`, `C101_level_iff`); with the exact condition of C48 and the least change of C92: `C101_followed_iff`, `C101_nearest`; a body on a slide is followed exactly up to 2.943 m/s² (`C101_slide`) and clipped there (`C101_clipped`); the reduced model likewise (`C101_reduced_followed_iff`); `C101_reduced_nearest`, met by `C101_hand_change`: with the reduced model no suppliable command is nearer |
| C102 | `setContacts`, `stackFeet`, `feetGravity`, `feetRedistribute`, `feetQP` (C81, C98) together with `updateKinematics`; `sole` of `Spec/Stance.lean` | The contacts chosen by a flag vector as a list (C98) in the support-polygon results (C100): `C102_stand_iff`, `C102_lift_iff`, `C102_redistribute_iff`, `C102_never_fails`, `C102_last_foot`, `C102_mono`; two blocks of which one can be lifted and the other cannot: `C102_blocks` |
| C103 | `updateKinematics`, `contactSpace`, `redistribute`, `calcTaskControlTorqueQP`; `supportRegion`, `Footing` and `InPlane` of `Spec/Terrain.lean` | Newton and Euler (C101) at rest, with wrenches that neither tip nor slip as a convex cone: `C103_stands_iff`, `C103_prism`; a weight on one sole and convexity: `C103_hull`; the centre of pressure in the inclined plane: `C103_slope`, `C103_slope_iff`; `C103_too_steep`; exactness of the QPs (C10, C60): `C103_redistribute_iff`, `C103_topples`, `C103_never_fails`; two blocks on two steps of a slope, for every friction coefficient: `C103_ramp`, `C103_ramp_plane`; the same with the reduced model: `C103_reduced_redistribute_iff`, `C103_reduced_never_fails`, `C103_hand_ramp`; choosing feet with `SetContact` as in C102 (`C103_lift_iff`), the answers of the joint-acceleration QP (`C103_jacc`); `C103_jacc_reduced`, met by `C103_hand_jacc`: joint-acceleration QP of the reduced model; `Props/TerrainLqp`: the hierarchical controller, by C57 and the contact level at rest |

No property is outside what an executable model can express. Threads, timing, floating point rounding and
the numerical behaviour of the external solvers are not modelled.

Disagreements found between properties and code are listed in section 4 once proved.

## 4. Findings (property false of the code; negation proved)

Each line names the theorem that proves the disagreement. What does hold is in the theorems suffixed
`_partial` (and in the other theorems listed in `MANIFEST.json`).

| id | what the code does | theorem |
|----|--------------------|---------|
| C05 | the ill-posed case is not reported: a non-square matrix is inverted before the error return | `C05_few_rows` |
| C05 | two point contacts registered last make the result non-finite though the contact set is well posed | `C05_points_last_not_finite` |
| C07 | with three levels and no QP, the third task disturbs the second: the torque corrects the motion from the lowest task upwards, so each correction may undo what lower tasks had reached | `C07_priority_violated`, `C07_sweep_partial` |
| C10 | in single support redistribution reports success without checking anything | `C10_single_support_unchecked` |
| C11 | reduced redistribution writes both torque limits to the same rows; the upper limit is lost | `C11_upper_limit_violated` |
| C15 | `getZMP` indexes the packed force vector by registry position and reads out of range | `C15_out_of_range_iff` |
| C21 | the link velocity filter uses an old output for the oldest input; not a low-pass, can diverge | `C21_link_not_filtered`, `C21_link_unstable` |
| C24 | `CalcAngularMomentumMatrix(cmm)` uses stale link Jacobians | `C24_stale_jacobian` |
| C25 | `com_vel` is never set; `UpdateKinematics(..., false)` on a fresh model is not finite | `C25_com_vel_never_set`, `C25_no_update_undefined` |
| C26 | a link below a massless body is merged with the wrong pose | `C26_massless_link` |
| C27 | registration by an out-of-range link number is undefined instead of refused | `C27_number_out_of_range_undefined` |
| C28 | refused calls after clearing leave stale rows; point and line contacts are undefined | `C28_stale_rows_after_clear`, `C28_point_contact_undefined`, `C28_line_switched_on_undefined` |
| C29 | the requested priority is ignored or the task dropped; bad targets accepted or undefined | `C29_priority_ignored`, `C29_add_by_name_dropped`, `C29_wrong_dimension_accepted` |
| C31 | rows with only an upper bound hand an unwritten array to the solver | `C31_upper_rows_undefined`, `C31_stale_upper_flag` |
| C35 | the joint-acceleration QP ignores the torque limits (±200 fixed); point contacts undefined | `C35_limit_ignored`, `C35_point_contact_undefined` |
| C36 | after `DeleteLink` contacts and tasks refer to other links; last-task case reads out of range | `C36_references_shift`, `C36_last_task_undefined` |
| C37 | `AddLink`, `ChangeLinkToFixedJoint`, `ChangeLinkInertia` leave the total mass stale | `C37_add_wrong`, `C37_fixed_wrong` |
| C38 | `AddLink` adds no joint record; a second load keeps the old records | `C38_add_undefined`, `C38_reload` |
| C39 | joints shared by contact chains are counted twice; hanging links go to the wrong list | `C39_shared_chain`, `C39_hanging_link`, `C39_added_link_missing` |
| C40 | reduction is wrong unless non-contact joints are stored last; needs six of them | `C40_order_wrong`, `C40_needs_six_joints` |
| C41 | `contact_dof_` is used as the number of contact-chain joints | `C41_redundant_leg_wrong` |
| C42 | shape mismatch or missing file is undefined | `C42_shape_undefined`, `C42_missing_file` |
| C43 | strided arrays misread; lengths unchecked; reset and QP unreachable | `C43_strided_wrong`, `C43_short_array`, `C43_reset_and_qp_unused` |
| C44 | orientation has no feed-forward; a requested end velocity biases the rest position | `C44_orientation_no_feedforward`, `C44_end_velocity_bias` |
| C44 | a link at rest half a turn from its desired orientation gets the command zero and stays there; no other wrong orientation is a rest position | `C44_orientation_stuck`, `C44_orientation_rests` |
| C45 | copying can overwrite the source's contact switches | `C45_source_damaged` |
| C46 | threaded levels see only the gravity torque, so the sum exceeds the limits | `C46_limit_violated` |
| C47 | QP task control in single support forms an ill-shaped product | `C47_single_support_undefined` |
| C49 | closed form always uses the first two registered contacts | `C49_wrong_pair` |
| C50 | opposite directions give the point reflection, not a rotation | `C50_opposite` |
| C52 | velocity of a user-given point is computed with the unrotated point | `C52_custom_point_velocity_wrong` |
| C52 | centre of mass: custom point undefined, orientation mixes two frames | `C52_com_custom_undefined`, `C52_com_orientation_mixed` |
| C52 | a link added to a custom task erases the user's Jacobian at each update | `C52_custom_task_erased` |
| C53 | both trajectory setters share one time window, the later call wins | `C53_window_overwritten` |
| C53 | the error limits are stored and never used | `C53_limits_ignored`, `C53_limit_exceeded` |
| C54 | without QP the second call undoes the first, and a contact torque already present is dropped | `C54_second_call_undoes`, `C54_alternates`, `C54_previous_contact_torque_dropped` |
| C55 | a stack that begins with a task outside the contact chains reads the task before the first | `C55_free_task_first_undefined` |
| C55 | a further task outside the chains directly below a chain task uses an unset matrix | `C55_free_after_chain_undefined` |
| C55 | a third task outside the chains disturbs the first one | `C55_third_free_task_disturbs` |
| C55 | a chain task below a task outside the chains disturbs it | `C55_chain_below_free_disturbs` |
| C56 | the type of a task is never taken back: after a contact switch the task is not calculated any more | `C56_contact_switch_undefined` |
| C56 | a custom task that involves the base and non-contact joints has no type | `C56_custom_both_undefined` |
| C56 | a task on two links outside the chains gets order 1 although it is the first | `C56_two_hands_undefined` |
| C57 | a task that can be attained exactly is attained to about a third: each level also minimises `5/‖A‖ q̈ᵀ A q̈` with the same weight | `C57_task_missed` |
| C57 | a contact-force limit that can be respected is violated for the same reason | `C57_contact_force_violated` |
| C58 | a torque limit whose size is not that of the reduced model only prints a message and is then undefined | `C58_limit_size_undefined` |
| C58 | for a task outside the contact chains neither the joint limits of the arm nor the contacts are checked although success is reported | `C58_free_task_unchecked` |
| C59 | with a single foot on the ground the contact torque of an earlier double support is kept and moves the robot | `C59_single_support_stale`, `C59_stale_torque_moves` |
| C61 | every change of the links (and loading) replaces the torque limit by zero while the flag stays set: QP control then allows no torque at all | `C61_limit_becomes_zero`, `C61_zero_limit_no_torque`, `C61_attached_link_stops_robot` |
| C61 | a limit of the wrong size is accepted; QP control is then undefined | `C61_wrong_size_undefined` |
| C61 | after a modification of a fixed-base robot the joint count is six too small | `C61_fixed_base_count` |
| C62 | the torque bound (and no user torque limit) covers the contact-chain joints only: for a robot with a heavy arm the full QP correctly fails, the reduced one succeeds and every torque that realises its answer exceeds the bound at an arm joint | `C62_arm_torque_unbounded` |
| C63 | the torque of the free joints is computed without the base acceleration (`A_NC` block times the joint accelerations only): whenever the base is planned to accelerate the robot does not move as planned, for any contact forces | `C63_accelerating_base_fails`, `C63_motion_iff` |
| C63 | the plan deviation is a slack of weight 1 against weight 5 for the task: a task that conflicts with the plan always disturbs the higher-priority plan | `C63_plan_kept_iff`, `C63_task_disturbs_rest` |
| C63 | `Ja` has the sign of a transport from the link to the base: the commanded linear acceleration gains `r × f_ω`, so the link gets the command iff this vanishes; with a turning base the base part is not removed correctly either | `C63_task_iff`, `C63_command_iff` |
| C63 | bounds of ±10 and ±100 are built and never handed to the solver, so every call succeeds and the torques are unbounded | `C63_arm_torque_unbounded`, `C63_always_succeeds` |
| C63 | a task without exactly six rows is undefined behaviour (assertion), and the benchmark's six-vector is always refused | `C63_other_rows_undefined`, `C63_wrong_size_refused` |
| C64 | The levels of the reduced hierarchical controller are added only for tasks of the contact chains but indexed by the position among all tasks: a chain task listed after a free-limb task writes past the end of the level list (undefined behaviour). | `C64_undefined_iff` |
| C64 | The force that the free limbs exert on the base is bounded like a motor torque (200, 600 on the third axis).  A robot whose free limbs weigh more can never be planned at rest, whatever its motors. | `C64_load_refused` |
| C64 | The free-joint controller weighs the planned acceleration of the free limbs against an energy term in one level, so a planned non-zero acceleration is never carried out exactly: the joined plan is a motion only if base and free limbs are planned not to accelerate. | `C64_motion_iff`, `C64_plan_lost` |
| C64 | The free-joint task level also carries the energy term, and its equality is a residual: with the robot at rest no non-zero hand command is ever carried out, without any bound being near. | `C64_task_missed`, `C64_hand_stays` |
| C64 | The free-joint controller always takes the second task of the list, whatever its kind, and requires it to have six rows. | `C64_free_undefined_iff` |
| C65 | `addHierarchy` always appends, while `ConfigureLQP` writes levels 0, 1 and 2+i: an object configured again keeps the old task levels beyond the new ones and gains blank levels.  Callers read the last level's answer, which still follows a task that was removed. | `C65_level_count`, `C65_removed_task_followed` |
| C65 | A further configuration passes the size assertions only with the same contact size and a prefix of the first task list's row counts: making or breaking a contact, or adding a task, fails an assertion.  (The default Release build has assertions off; there matrices of other sizes than the level was made for are stored, with the consequences listed in `Model/HqpObject`.) | `C65_accepts_iff` |
| C66 | The problem data and the solver's sizes are those of the last call with `init = true`, but the number of free directions of a level is recomputed by every `prepare()`.  If a level loses a free direction, the column of the old one stays in the constraint rows as a variable that stands for nothing and costs nothing: it relaxes the inequalities of the levels above, and the answer violates them although no violation is reported. | `C66_constraint_violated` |
| C66 | If a level gains free directions (the level above became singular), the block writes of a solve without initialisation leave their matrices as soon as there are more directions than the level had variables; below that they silently overwrite the columns of the level's own violations. | `C66_undefined_iff`, `C66_writes_outside` |
| C67 | The destructor of a level deletes its solver only if `solver_init` is set, and nothing ever sets it: every solver ever made stays in memory, also after the objects are gone.  (Setting the flag alone would be worse: `addHierarchy` copies a local level into the vector, so its destructor would delete the solver of the copy.) | `C67_all_alive`, `C67_never_released` |
| C67 | A copy of a hierarchical solver shares the inner solvers with the original: solving the copy replaces the problem the original's solver holds. | `C67_copy_shares` |
| C68 | The closed form on the reduced model is guarded by `co_dof == 12`, the number of joints in the contact chains, where the full model tests `contact_dof_ == 12`, the number of contact rows.  With two feet and seven-joint legs nothing is redistributed, the contact torque is set to zero and 0 is returned; with twelve chain joints and other contacts a vector of the wrong size is stored in a `Vector12d`. | `C68_not_twelve_joints`, `C68_other_contacts` |
| C69 | When task control on the reduced model fails at a lower task, `torque_task_` is zero while `torque_task_R_` keeps the tasks above, and `ReducedCalcContactRedistribute` works on the latter.  It reports success with a contact torque that fits a task torque that is not sent: the torque sent can make a foot slip although gravity compensation alone could be redistributed safely.  (The full model keeps both, `C60_failure_keeps`.) | `C69_failure_zero`, `C69_reduced_torque_kept`, `C69_after_failure` |
| C70 | `link_num_` (line 205) and `joint_[i].joint_id_` are written on loading only. After any `DeleteLink` or `ChangeLinkToFixedJoint` the loop `i < link_num_` of `ReducedDynamicsCalculate` runs over the end of `joint_` (and of `link_`), for every contact set. | C70_removed_undefined |
| C70 | After `AddLink` on a movable joint the reduced model is that of the robot without the added link: its coordinates are in neither list, a contact on it reads outside `joint_`, a COM task is classified as a task of the free joints and a task on the added link as a COM task (line 3190 compares with `link_num_`). | C70_partition_iff, C70_kept_partial, C70_added_missing, C70_com_task |
| C70 | Loading a robot with more links into an object that held a smaller one gives a link the joint number of the base (`joint_` is not cleared), so the lists never partition the coordinates. | C70_reload_wrong, C70_reload_partial |
| C71 | `ChangeLinkToFixedJoint` before the first `UpdateKinematics` attaches the link with `parent_rotation_` and `parent_translation_` that were never written (only lines 313-318 write them). | C71_fixed_before_update |
| C71 | Loading gives the joint of a sliding (prismatic) link a record without type, axis and frame (line 186). A sliding link that is deleted and added again with its own records is lost without a reported failure, and `InitModelWithLinkJoint` gets an undefined RBDL joint. | C71_readd_sliding, C71_rebuild_sliding |
| C71 | `InitModelWithLinkJoint` puts `joint_rotation_` into the RBDL frame without transposing it (line 2438), while `AddLink` transposes it and `InitModelData` stores the transpose. The rebuilt model places the links as the robot does if and only if every joint frame rotation is symmetric. For records taken from a loaded robot the frame of the base was never written at all. | C71_rebuild_iff, C71_rebuild_wrong, C71_rebuild_undefined |
| C72 | Deleting the base of a floating-base robot erases `lambda_q` at its end (lines 1922-1925 add `i` to the place although the vector has already shrunk): undefined behaviour. | C72_delete_base_undefined |
| C72 | The quaternion places and `q_size` are computed before the joint is erased (lines 1857-1866), so deleting a spherical joint leaves a configuration vector one entry too long. The next `AddLink` puts it right. | C72_delete_spherical_wrong, C72_add_repairs |
| C72 | `lambda_q` starts with an entry for the root, so `DeleteLink` erases the entry of the joint before. Deleting any single joint but the first leaves an entry that points to itself; RBDL's sparse factorisation of the model would not end. | C72_lambda_loop |
| C73 | `Link::GetJacDot` is not the derivative of the Jacobian for any robot, any motion and any order of the rows: it is the Jacobian of the point whose position equals the link's velocity (it passes `v` where RBDL passes the position and differentiates nothing). It is not zero at rest, and it ignores the point it is asked for. | C73_not_derivative, C73_error_partial, C73_rest_nonzero |
| C74 | With every contact switched off `CalcContactConstraint` resizes a matrix to a negative number of rows (`contact_dof_ - 6`): a robot in the air cannot be controlled, although the inner function accepts fewer than six rows. | C74_no_contact_undefined |
| C74 | `SetContact` no longer does the contact calculation (commented out), and example/test.cpp and tests/test.cpp still rely on it: gravity compensation before any `CalcContactConstraint` is undefined. | C74_missing_contact_calc |
| C74 | `CalcContactConstraint` turns `P_C` into a `contact_dof_ x system_dof_` matrix, so `getContactForce` between it and `CalcGravCompensation` adds a vector and a matrix of different shape. | C74_force_needs_gravity |
| C74 | A state given after the contact calculation is used for gravity but not for the contacts: the torque then does not hold the robot still. The Python bridge's `UpdateKinematics` followed by `CalcTorque` does this, and so does setting the contacts again without `CalcContactConstraint`. | C74_stale_contact_calc |
| C75 | The bridge passes its `task_init` flag (always false) as `hqp`, so it never uses the quadratic programmes: the torque limit set in its constructor has no effect, and for every state and contacts some task command gives a torque beyond any bound. | C75_limit_ignored, C75_unbounded |
| C76 | `ReducedCalcGravCompensation` does not clear the task and contact torques as `CalcGravCompensation` does: after a cycle that accelerated a joint, state, contacts and gravity compensation alone go on accelerating it. | C76_gravity_keeps_torques, C76_gravity_only_moves |
| C76 | On one contact `ReducedCalcContactRedistribute` returns 0 and keeps the contact torque of the last cycle on more contacts, whatever the state was then. | C76_single_support_keeps |
| C76 | `getContactForce` after the reduced calls uses the gravity term of the last `CalcGravCompensation` of the full model: undefined if there was none, otherwise wrong by the difference of the two states. | C76_force_needs_full_gravity, C76_wrong_force, C76_reported_force_partial |
| C76 | The classification of a task is only ever added to: once its link was on a contact chain in one cycle and off in another, task control is undefined. A robot that lifts a foot can not control that foot with the reduced model. | C76_contact_switch_undefined |
| C77 | A joint a million times heavier (in inertia seen through the contacts) than the lightest one gets no gravity torque at all in single support: its column of the inverse inertia is below the threshold. | C77_heavy_joint_falls, C77_gravity_violated |
| C77 | In double support the same robot makes the contact computation undefined (non-square inverse). | C77_two_contacts_undefined, C77_outcome |
| C77 | A task one row of which is a thousand times smaller than another, such as an arm within 0.06 degrees of straight, follows the nearly singular row and ignores the other one: the pseudo-inverse is taken of the task inertia, where the nearly singular direction is the largest. | C77_task_row_ignored, C77_task_violated |
| C78 | Three point feet that come into line: gravity compensation jumps, although contacts stay independent and the load is constant (the pseudo-inverse of W changes rank). It is continuous for every load exactly where the number of base motions the contacts leave free does not change. | C78_gravity_jump, C78_gravity_iff |
| C78 | Closed-form redistribution with one foot before the other: the ratio divides by the lateral distance of the feet, so the front foot's load jumps from one end of its range to the other as that distance changes sign. | C78_redistribute_jump |
| C78 | QP task control at the edge of feasibility: a push a little larger than friction can take makes the first QP infeasible, and the whole task torque drops to zero at once. | C78_qp_jump |
| C78 | With a margin in limits and contacts the jump goes away: the answer of the first QP level is the admissible acceleration nearest to the wanted one, and that varies continuously (compactness of the admissible torques, one strictly admissible point, uniqueness of the nearest point). | C78_qp_first_partial, C78_qp_one_partial |
| C79 | with the hand-over of tests/test_thread.cpp the control thread never sees the measured centre of mass position: `CopyKinematicsData` does not copy it, so it is the one from before the program in every cycle (the joint table likewise) | `C79_com_stale`, `C79_hypotheses_met` |
| C79 | tasks the control thread adds to its robot are removed by the next copy; in tests/test_thread.cpp the control thread works with four tasks in the first cycle (two copied, two added) and with two afterwards | `C79_own_tasks_lost` |
| C79 | the first copy makes the contact switches of the measuring thread's robot indeterminate, and every later copy passes that on, so the control thread has to switch all its contacts in every cycle | `C79_switches_lost` |
| C80 | contact redistribution without QP depends on the heading: it is meant to turn the frame of the two feet back by the yaw, but takes `link_[0].rpy(2)`, which with `eulerAngles(2, 1, 0)` is the roll angle (src/dwbc.cpp 1579, 4951); for an upright base it is 0 or a half turn whatever the robot faces, so the split of the load between the feet changes with the heading | `C80_redistribute_angle`, `C80_redistribute_heading`; with the yaw it would be invariant: `C80_redistribute_yaw_partial` |
| C80 | the same redistribution gives a torque for a robot facing along x and NaN for the same robot facing along y | `C80_redistribute_heading_nan` |
| C80 | PD gains act along the axes of the world: with different gains along x and y the command depends on the heading | `C80_position_gain` |
| C80 | a commanded turn of exactly half a turn goes one way round or the other depending on the heading (signs of the two quaternions) | `C80_half_turn` |
| C80 | `getZMP` without an active contact returns the origin of the world, wherever the robot is | `C80_zmp_none` |
| C81 | contact redistribution by QP depends on which contact was registered last: the cost is the change of all contact forces but the last six rows (src/dwbc.cpp 1453-1470, with the columns of `NwJw` scaled by the first rows of `J_C_INV_T`), so the force of the last foot is free; two feet, same robot, another contact torque when the other foot is registered first | `C81_redistribute_differs`; invariant when the last switched-on contact stays last: `C81_redistribute_last` |
| C81 | standing on a foot and two point contacts, `CalcContactConstraint` gives no finite result when the foot is registered first and a result when the points are | `C81_points_last` |
| C81 | redistribution without QP: when no split keeps both feet, the clamp of the ratio tests the upper bound first (src/wbd.cpp 379-387), so the first registered foot gets the smaller share, whichever foot that is | `C81_split_differs`, `C81_closed_form_differs`; otherwise invariant: `C81_split`, `C81_closed_form_partial` |
| C81 | `getZMP` works for a ground foot registered before a lifted foot and reads outside the force vector for the other order | `C81_zmp_differs`; invariant when every registered contact is on: `C81_zmp_partial` |
| C82 | QP task control depends on the units of a task: the cost is the plain sum of squares of the deviations, so when a task cannot be met within the limits, writing one equation in other units changes the motion. Biped with two arm joints: 1/4 against 2/5 at the first joint. | C82_qp_units_differ |
| C82 | Where the contacts do not determine the base (point feet), even the closed-form torque depends on the choice of equations, as the pseudo-inverse in `CalculateJKT` is then of a singular matrix. Body on a point: torque -1 against -3/2. | C82_units_base_differs |
| C82 | The hierarchical controller scales every row of a task to length one and weighs the rows against effort. Adding one equation to another asks for the same but counts the first twice: a joint asked for acceleration 1 accelerates by 2/(2+5/√7) instead of 1/(1+5/√7). | C82_lqp_sums_differ |
| C83 | No controller accounts for `J̇ q̇`, and all but the hierarchical QP ignore Coriolis and centrifugal forces, although `UpdateKinematics` computes them (`B_`). A commanded task acceleration is missed by an amount that grows with the square of the velocity; tip of a turning crane: short by ω². | C83_task, C83_speed, C83_task_missed |
| C83 | Reported contact forces, and with them the friction and centre-of-pressure rows of the QPs, are off by the same terms: a foot under a whirling arm slips while the controller reports no sideways force. | C83_contact_force, C83_slips |
| C84 | The pseudo-inverse minimises the sum of the squares of all joint torques, whatever their units. A robot with linear and rotary joints, or with one leg measured in other units, gets another gravity torque on two feet: two equal legs that carry 1/2 and 1/2 of the weight carry 1/5 and 4/5 when the first is measured in a unit twice as large. | C84_units_wrong |
| C85 | `getZMP` leaves out a contact whose normal force is above -0.001 (an absolute number): the ZMP of a toe that presses with 0.002 moves to the origin when all forces are divided by 4. | C85_zmp_wrong |
| C85 | The joint-acceleration QP adds the mass matrix to the weight 100 of the task error. The heavier the robot, the less of the task it does, although nothing limits it: a joint of inertia mu told to accelerate with 5 accelerates with 500/(100+mu). Expressing masses in other units changes the motion. | C85_jacc_wrong |
| C85 | The torque bound of 200 of the hierarchical controller is built in. A joint told to accelerate with 1 is accelerated by more than 1/3 if its inertia is 1, and by at most 1/5 if its inertia is 1000. | `C85_lqp_wrong` |
| C86 | The cost of the task QP has no term for the contact torque (the second block of `H` is zero). Although a robot stands without any torque, an exact solver may make its feet push against each other; nothing in the problem prefers the smaller torque. | C86_qp_torque_wrong |
| C87 | positive gains are not enough: after the end of the trajectory the loop settles from every start exactly when 0 < Kp, h Kp < 2 Kd and h Kd < 2 on every axis; Kp = 400, Kd = 40 do not settle at twenty calls per second. Nothing in the API relates gains to the period | C87_wrong, C87_sampled |
| C88 | however small the tolerance, task control can fail where exact answers succeed: an answer that exceeds a torque limit by ε at one level is a fixed part of the next level's constraints, which then have no solution when the solver tests solvability more strictly than it answers; the code adds no slack between levels | C88_lower_level_fails, C88_never_fails |
| C89 | with gains that differ between axes, the damping command of a position task can drive the robot: the inertia seen at the task couples the axes, and the command is an acceleration, so that Λ Kd need not be positive. SetTaskGain takes one gain per axis and does not warn | C89_damping_wrong, C89_damping |
| C89 | gravity compensation does not stop a robot that moves: its kinetic energy stays the same for ever | C89_hold, C89_keeps_moving |
| C90 | a task is missed when only the inertia of one joint is wrong and the weight is right (attained 3/4 of the command); nothing in the library compensates | C90_task_missed, C90_task_direction |
| C91 | contact redistribution by QP loads a symmetric robot in a symmetric stance with a symmetric torque lopsidedly: the cost counts only the forces of the contacts other than the last registered one | C91_redistribute_lopsided, C91_redistribute_mirror |
| C91 | an orientation trajectory of exactly half a turn turns the robot and its mirror image the same way | C91_half_turn, C91_orientation_command_partial |
| C92 | task control without QP leaves the error flag and the change of the command of an earlier call with QP: a task that was just followed exactly is still marked as failed, or as changed | C92_flag_stale, C92_change_stale, C92_plain_partial |
| C92 | after a failure the failing task keeps the torque of an earlier call and the tasks below it keep their whole records, flags included | C92_failure_partial |
| C92 | the second function that solves one level (public, not called by the library itself) does not clear the contact part after a failure and leaves it with a length that `NwJw_` does not fit | C92_single2_size, C92_single2 |
| C92 | with the reduced model, a failure of the QP for the tasks outside the contact chains returns 0 without setting any task's error flag; those tasks never get a flag, a change or a contact part written | `C92_reduced_flag_missing`, `C92_reduced_failure_partial` |
| C94 | Task control with QP changes only the command and the contact torque, never how the work is shared among joints: with two joints that should together accelerate by 2, one of them limited to torque 1/2, it gives at most 1 although a safe torque gives 2. | `C94_qp_weak_joint` |
| C94 | The joint-acceleration QP weighs acceleration energy against the task with a fixed weight, so it never follows a nonzero command where the robot could stand still; a 100 kg robot is given at most half of a commanded acceleration of its centre of mass, without any limit being reached. | `C94_jacc_never`, `C94_jacc_share`, `C94_jacc_com`, `C94_jacc_half` |
| C94 | The hierarchical controller never follows a nonzero command of its first task where the robot could stand still (its energy weight is 5 / ‖A‖). | `C94_lqp_never`, `C94_lqp_share` |
| C95 | Wider torque limits can take a lower task further from its command: with two joints asked to accelerate by 2 together and the first asked by the second task to stay, the second task misses by s² for every limit s ≤ 1. | `C95_second_task_worse` |
| C96 | Commands that cannot be followed are not blended: two joints with torque limit 1/2 asked to accelerate together by 0, 1 and 2 accelerate by 0, 1 and 1. | `C96_limited_not_blended` |
| C96 | The joint-acceleration QP and the hierarchical controller add an effort term to the task error. On a robot that could stand still they therefore give no stack of tasks exactly the accelerations commanded, unless all commands are zero. | `C96_jacc_follows_only_rest`, `C96_lqp_follows_only_rest`, `C96_jacc_reduced_follows_only_rest_partial` |
| C97 | The constructor writes 40 numbers into the state vector whatever robot was loaded. With more than 33 joints and assertions off the quaternion of the base is zero and a joint is at 1; with fewer it writes out of range. | `C97_more_joints_no_orientation`, `C97_defined_iff` |
| C97 | Whether link 15 exists is not checked when the bridge registers its second task. | `C97_task_link_unchecked` |
| C98 | Lifting a loaded foot makes the gravity compensation jump from one call to the next: the library has no transition between contact sets (a user must unload the foot first). | `C98_lift_jumps`, `C98_gravity_iff` |
| C98 | When only one contact remains, QP task control is undefined whatever the load (C47). | `C47_single_support_undefined` |
| C99 | With feet at different heights `getZMP` weighs points at different heights with the vertical forces; horizontal forces between the feet then move the result: a robot that stands still with one foot a metre higher, each foot pressing with half the weight, gets a ZMP half a metre beside its centre of mass | `C99_step_zmp_off` |
| C100 | Standing on one foot, contact redistribution returns success without looking at the contact conditions, also when the centre of mass is beside the sole and no torque can hold the robot without tipping | `C100_one_foot_unnoticed` |

## 5. Coverage

Modelled, by model file (lines of `/repo`; each definition cites its own lines):

| source | lines | model file |
|--------|-------|------------|
| src/wbd.cpp | 5-53 pseudo-inverse; 59-97 constraint matrices; 108-143, 186-192, 268-271 contact space, gravity, contact force; 207-226, 257-261 task gains and null spaces; 273-404 closed-form redistribution | Pinv, CodRank, Contact, ConstraintRows, Task, ReducedTask, Redistribute |
| src/math.cpp | 9-120, 226-291 rotations; 127-224 splines; 293-320 inertia transport; 330-347 filter; 349-360 null space | Rotation, Spline, Body, Filter, HQP |
| src/task.cpp | 5-76 construction; 95-142 reduced gain; 217-346 trajectories and PD laws | TaskRegistry, ReducedTask, TaskLinkObj, TaskPD |
| src/contact_constraint.cpp | 5-121 | Registry, ConstraintRows, CopyKin |
| src/link.cpp | 46-119 poses and Jacobians; 131-182 GetJacDot; 184-301 adjoint, inertia, combination, filter | Kinematics, TaskRows, JacDot, Body, Filter, Heading |
| src/qp_wrapper.cpp | 6-95, 184-381 | QPWrapper |
| src/dwbc_hqp.cpp | 16-47, 222-434, 436-481, 530-622 | HQP, HqpObject, HqpWarm, HqpOwner |
| src/dwbc.cpp | 76-252, 254-375 loading, torque limit, kinematics | Registry, LinkTree, LinkMod, Kinematics, TorqueLimit |
| src/dwbc.cpp | 377-793 contacts and tasks | Registry, ConstraintRows, TaskRegistry, TaskRows, Feet, Level |
| src/dwbc.cpp | 795-1046, 1288-1344 task torques, ZMP, contact force | Task, QPControl, Redistribute |
| src/dwbc.cpp | 1372-1632 redistribution, command torque | QPControl, ClosedForm, Repeat, Command, Heading |
| src/dwbc.cpp | 1633-1680, 2505-2605 momentum matrix, centroidal inertia | Kinematics |
| src/dwbc.cpp, include/dwbc.h | 279-478, 818-895, 1372-1618; dwbc.h 432-474: members kept between the control calls | Session |
| src/dwbc.cpp | 1711-1762 copying of kinematics | CopyKin |
| tests/test_thread.cpp | 10-230 hand-over between threads | Handover, HandoverRobot |
| src/dwbc.cpp | 1764-2395, 2425-2470, 2707-2731 editing the model | LinkMod, ReducedMod, TorqueLimit, FixGeom, QLayout |
| src/dwbc.cpp | 2607-2705 virtual inertia | LinkTree |
| src/dwbc.cpp | 2752-3770 reduced model and its control | ReducedIdx, Reduced, ReducedTask, TaskKind, ReducedQP, ReducedClosed, ReducedMod |
| src/dwbc.cpp | 890-895, 2752-3770: members kept between full and reduced control calls | ReducedSession |
| src/dwbc.cpp, include/dwbc_task.h | 818-872, 1077-1125, 1130-1280; dwbc_task.h 120-171: what is recorded with each task | TaskRecord |
| src/dwbc.cpp | 3255-3445, 3580-3598, 3741-3755: what the reduced task control records | ReducedRecord |
| src/dwbc.cpp | 3772-4302 joint-acceleration QPs | JaccQP, ReducedJacc, ReducedJaccNC |
| src/dwbc.cpp | 4304-4453 hierarchical controller | HQP |
| src/dwbc.cpp | 4455-4760 hierarchical controller on the reduced model | ReducedLqp |
| src/dwbc.cpp | 4762-4995 reduced redistribution | QPControl, ReducedClosed |
| include/dwbc_util.h | 12-67 binary matrix files | Binary |
| src/pybind/rl_wbc_bridge.cpp | 7-46, 79-139 | BridgeNew, Bridge, BridgeSession |

Not modelled:

* the `COMPILE_QPSWIFT` variant of the QPs (src/dwbc.cpp 8-62 and the `#ifdef` branches), which does not compile at this commit (line 132 assigns a `CQuadraticProgram` to a `QP*`);
* printing, timing (`std::chrono`), verbose output and URDF parsing;
* RBDL itself: mass matrices, Jacobians and poses are inputs (C25, C38, C54 relate them where the code combines them);
