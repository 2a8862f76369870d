{"id": "C01", "title": "Reported contact force is the true constraint force", "statement": "For any commanded joint torque, the contact force returned by getContactForce is the one and only force for which the rigid-body equation A*qdd + J_C^T*F + G = S*tau has a solution that keeps every active contact point unaccelerated (J_C*qdd = 0), and that solution is unique.", "quantifier": "every robot size, symmetric positive definite mass matrix, full-row-rank contact Jacobian, gravity vector and torque command", "why_tests_cant": "Tests compare a few recorded configurations of one robot; existence and uniqueness is a statement about all real matrices.", "anchors": ["src/wbd.cpp:CalculateContactConstraint", "src/wbd.cpp:CalculateContactForce", "src/wbd.cpp:CalculateGravityCompensation", "src/dwbc.cpp:RobotData::getContactForce"]}
{"id": "C02", "title": "Contact-consistent dynamics operators are correct projectors", "statement": "CalcContactConstraint yields a constraint projector: the projector is idempotent, annihilates contact forces, produces accelerations that never move an active contact, and the projected inverse inertia is symmetric positive semidefinite; the computation is finite exactly when the active contact Jacobian has independent rows.", "quantifier": "every mass matrix and contact Jacobian", "why_tests_cant": "Projector identities must hold for every matrix; finiteness depends on rank, which samples miss.", "anchors": ["src/wbd.cpp:CalculateContactConstraint", "src/dwbc.cpp:RobotData::CalcContactConstraint"]}
{"id": "C03", "title": "Gravity compensation holds the robot still", "statement": "Applying the torque returned by CalcGravCompensation at rest gives zero acceleration of every joint, and zero acceleration of the whole robot including the floating base whenever the active contacts determine the base motion.", "quantifier": "every robot, posture and contact set with independent contact rows", "why_tests_cant": "The claim rests on range inclusion of a pseudo-inverse for every matrix, including rank-deficient ones.", "anchors": ["src/wbd.cpp:CalculateGravityCompensation", "src/dwbc.cpp:RobotData::CalcGravCompensation"]}
{"id": "C04", "title": "Internal-force torques do not move the robot", "statement": "Any torque in the contact-null space used for force redistribution leaves every acceleration unchanged, and changes the first (contact dof - 6) contact-force components by exactly the commanded amount.", "quantifier": "every robot, contact set with more than six contact rows and every redistribution command", "why_tests_cant": "Holds because of an orthogonality argument over all matrices; a numerical test sees rounding noise only.", "anchors": ["src/wbd.cpp:CalculateContactConstraint", "src/wbd.cpp:PinvCODWB", "src/dwbc.cpp:RobotData::CalcContactRedistribute"]}
{"id": "C05", "title": "Contact factorisation succeeds for well-posed contacts", "statement": "CalcContactConstraint reports success whenever the contact rows are independent and the contacts determine the floating base: the null dimension it finds equals contact dof minus six; the factorisation-error return happens only when the contacts leave the base free.", "quantifier": "every mass matrix and contact Jacobian with more than six rows", "why_tests_cant": "Rank counting for arbitrary dimension.", "anchors": ["src/wbd.cpp:CalculateContactConstraint"]}
{"id": "C06", "title": "A single task reaches its commanded acceleration", "statement": "With gravity compensation plus the torque computed for one task, the resulting task-space acceleration equals the commanded f*, whenever contacts determine the base and the task is not singular; contacts stay fixed.", "quantifier": "every robot, contact set, task Jacobian and commanded acceleration", "why_tests_cant": "Requires a pseudo-inverse identity for all matrices, tests sample one robot.", "anchors": ["src/wbd.cpp:CalculateJKT", "src/task.cpp:TaskSpace::CalcJKT_R", "src/dwbc.cpp:RobotData::CalcTaskControlTorque"]}
{"id": "C07", "title": "Lower-priority tasks never disturb higher-priority tasks", "statement": "In the prioritised (non-QP) task stack, adding a task at a lower level leaves the accelerations of all tasks above it unchanged.", "quantifier": "every number of priority levels, every task Jacobian and commanded acceleration", "why_tests_cant": "Quantifies over stacks of every depth; a two-level test cannot reveal an error that appears at three levels.", "anchors": ["src/wbd.cpp:CalculateTaskNullSpace", "src/dwbc.cpp:RobotData::CalcTaskSpace", "src/dwbc.cpp:RobotData::CalcTaskControlTorque"]}
{"id": "C08", "title": "QP task control respects torque limits", "statement": "When CalcTaskControlTorque (QP mode) with at least one task and torque limits set reports success, the sum of gravity, task and contact torques is within the configured limit on every joint.", "quantifier": "every number of tasks, every robot, every feasible answer of the QP solver", "why_tests_cant": "Depends on how per-level rows and accumulated torques fit together over all levels.", "anchors": ["src/dwbc.cpp:RobotData::CalcTaskControlTorque", "src/dwbc.cpp:RobotData::CalcSingleTaskTorqueWithQP"]}
{"id": "C09", "title": "QP task control respects contact constraints", "statement": "When CalcTaskControlTorque (QP mode) with at least one task reports success, the contact force produced by the total command torque satisfies the friction and centre-of-pressure inequalities of every active contact in that contact's own frame.", "quantifier": "every number of tasks and active 6-D contacts, every feasible answer of the QP solver", "why_tests_cant": "Quantifies over all contact sets and levels; sign conventions can only be validated in general by proof.", "anchors": ["src/dwbc.cpp:RobotData::CalcSingleTaskTorqueWithQP", "src/dwbc.cpp:RobotData::getContactConstraintMatrix", "src/wbd.cpp:GetZMPConstMatrix", "src/wbd.cpp:GetForceConstMatrix"]}
{"id": "C10", "title": "QP contact redistribution is safe", "statement": "After a successful CalcContactRedistribute (QP mode) the total torque satisfies the torque limits and all contact inequalities, the robot's accelerations are unchanged, and if the input already satisfied all of them the torque is returned unchanged.", "quantifier": "every robot, contact set and input torque; every exact QP minimiser", "why_tests_cant": "Combines optimality and null-space reasoning over all matrices.", "anchors": ["src/dwbc.cpp:RobotData::CalcContactRedistribute"]}
{"id": "C11", "title": "Reduced-model redistribution respects torque limits", "statement": "After a successful reduced-model contact redistribution in QP mode with torque limits set, every reduced joint torque lies within both the upper and the lower limit.", "quantifier": "every reduced robot, contact set and input torque", "why_tests_cant": "A row written at the wrong offset matters only for inputs where the lost bound is active.", "anchors": ["src/dwbc.cpp:RobotData::CalcContactRedistributeR"]}
{"id": "C12", "title": "Centre-of-pressure rows mean the CoP is inside the sole", "statement": "The four ZMP rows of a contact are all nonnegative exactly when the pressing force is nonnegative-valued and the centre of pressure (-my/fz, mx/fz) lies inside the rectangle of half sizes lx, ly; when the pressing force is zero the tipping moments must vanish.", "quantifier": "every wrench and every foot size", "why_tests_cant": "Equivalence over all real wrenches.", "anchors": ["src/wbd.cpp:GetZMPConstMatrix", "src/contact_constraint.cpp:ContactConstraint::GetZMPConstMatrix4x6"]}
{"id": "C13", "title": "Friction rows mean the wrench is inside the friction pyramid", "statement": "The six force rows are all nonnegative exactly when |fx|,|fy| <= mu*N and |mz| <= mu_z*N with N the pressing force; with mu > 0 this forces N >= 0. The feasible wrenches form a convex cone.", "quantifier": "every wrench and friction coefficient", "why_tests_cant": "Equivalence over all real wrenches.", "anchors": ["src/wbd.cpp:GetForceConstMatrix", "src/contact_constraint.cpp:ContactConstraint::GetContactConstMatrix"]}
{"id": "C14", "title": "Two-contact redistribution conserves the resultant wrench", "statement": "The redistributed pair of contact wrenches has exactly the same resultant force and moment as the input pair, and the split ratio eta lies in [1-eta_cust, eta_cust] or is 0.5, whatever the inputs, whenever the arithmetic is defined.", "quantifier": "every pair of foot positions, wrenches and tuning constants for which the formula's divisors are nonzero", "why_tests_cant": "Real-parameter identity; tests check a few recorded poses.", "anchors": ["src/wbd.cpp:ContactRedistributetwomod"]}
{"id": "C15", "title": "getZMP returns a pressing-force-weighted average of active contact CoPs", "statement": "getZMP returns the average of the CoPs of the active contacts weighted with vertical force, so it lies in the convex hull of the foot CoPs, whichever contacts are active.", "quantifier": "every set of active/inactive contacts and every contact force vector", "why_tests_cant": "Depends on index packing for every on/off pattern of contacts.", "anchors": ["src/dwbc.cpp:RobotData::getZMP"]}
{"id": "C16", "title": "Quintic spline meets boundary conditions and is C2", "statement": "QuinticSpline returns position, velocity, acceleration where velocity and acceleration are the exact derivatives of position inside the interval, the start and end position/velocity/acceleration are met, and outside the interval the boundary values are held, so the profile is continuous at both ends.", "quantifier": "every boundary data set with t0 < tf and every time", "why_tests_cant": "Real-parameter identity and differentiability.", "anchors": ["src/math.cpp:QuinticSpline"]}
{"id": "C17", "title": "Cubic spline meets boundary conditions and is C1", "statement": "cubic returns start and end position, its derivative equals the requested velocities at both ends, it is differentiable inside the interval and continuous, and outside the interval the ends are held; with zero end velocities the trajectory is monotone and stays between the end points.", "quantifier": "every boundary data set with t0 < tf and every time", "why_tests_cant": "Real-parameter identity and differentiability.", "anchors": ["src/math.cpp:cubic"]}
{"id": "C18", "title": "Axis rotations are proper rotations", "statement": "rotateWithX/Y/Z return rotation matrices (orthogonal, determinant one) that fix their axis, compose by adding angles and are inverted by negating the angle.", "quantifier": "every angle", "why_tests_cant": "Trigonometric identity over all reals.", "anchors": ["src/math.cpp:rotateWithZ", "src/math.cpp:rotateWithY", "src/math.cpp:rotateWithX"]}
{"id": "C19", "title": "Rotation interpolation stays a rotation and hits both ends", "statement": "rotationCubic returns a proper rotation at every time, equals the initial rotation up to t0 and the final rotation from tf on, and is continuous at the ends.", "quantifier": "every pair of rotations, time and interval", "why_tests_cant": "Continuous quantification over rotations and time.", "anchors": ["src/math.cpp:rotationCubic"]}
{"id": "C20", "title": "Skew matrix and orientation error", "statement": "skew(v)*w is the cross product v x w, skew is antisymmetric and equivariant under rotation, and the orientation error GetPhi is zero when current and desired orientation agree, antisymmetric under exchange, and equals sin(angle)*axis for a pure rotation between them; for rotations it vanishes only if they agree or differ by a half turn.", "quantifier": "every vector and every pair of rotation matrices", "why_tests_cant": "Algebraic identity over all reals.", "anchors": ["src/math.cpp:skew", "src/math.cpp:GetPhi"]}
{"id": "C21", "title": "Low-pass filter reproduces constants and settles", "statement": "The second-order low-pass filter has unit DC gain (a constant signal is reproduced exactly), is linear, and is asymptotically stable for every positive cut-off, sampling rate and damping; the link velocity filter applies it to the last three inputs and last two outputs.", "quantifier": "every signal history and every positive cut-off, sampling rate and damping", "why_tests_cant": "Quantifies over infinite signal histories.", "anchors": ["src/math.cpp:secondOrderLowPassFilter", "src/link.cpp:Link::calc2lpf"]}
{"id": "C22", "title": "Merging links conserves mass, first moment and inertia", "statement": "Link::AddLink produces the rigid body of the union: mass adds, the centre of mass is the mass-weighted mean, and the inertia about any point is the sum of the two inertias about that point; the result does not depend on the order in which links are merged.", "quantifier": "every pair or sequence of links and mounting poses", "why_tests_cant": "Order-independence over every sequence of merges.", "anchors": ["src/link.cpp:Link::AddLink"]}
{"id": "C23", "title": "Spatial inertia round trip", "statement": "Building a 6x6 spatial inertia from mass, centre of mass and inertia and extracting them again returns the original values, and the spatial inertia is symmetric positive definite for a physical body.", "quantifier": "every body with nonzero mass", "why_tests_cant": "Algebraic identity over all reals.", "anchors": ["src/math.cpp:InertiaMatrix", "src/math.cpp:InertiaMatrixSegment", "src/link.cpp:Link::GetSpatialInertiaMatrix"]}
{"id": "C24", "title": "Centroidal angular momentum is computed about the true COM", "statement": "CalcAngularMomentumMatrix times the joint velocity equals the sum over all links of spin plus orbital angular momentum taken about the whole-body centre of mass.", "quantifier": "every number of links, masses, inertias, poses and joint velocities", "why_tests_cant": "Sum over arbitrary many links, real parameters.", "anchors": ["src/dwbc.cpp:RobotData::CalcAngularMomentumMatrix"]}
{"id": "C25", "title": "COM and gravity vector are consistent", "statement": "After UpdateKinematics the COM position, velocity and Jacobian are the mass-weighted means of the link values, COM velocity is the COM Jacobian times the joint velocity, and the gravity vector is the negative generalised force of all link weights.", "quantifier": "every number of links, masses and poses", "why_tests_cant": "Sum over arbitrary many links, real parameters.", "anchors": ["src/dwbc.cpp:RobotData::UpdateKinematics"]}
{"id": "C26", "title": "Collapsing a kinematic subtree conserves its inertia", "statement": "CalcVirtualInertia over any set of links returns the total mass, the true centre of mass and the total inertia of that set; it terminates for every non-empty set numbered parent-before-child.", "quantifier": "every kinematic tree and every set of links", "why_tests_cant": "Loop over an arbitrary tree with index removal.", "anchors": ["src/dwbc.cpp:RobotData::CalcVirtualInertia", "src/dwbc.cpp:RobotData::CalcCOMInertia"]}
{"id": "C27", "title": "Contact registry stays consistent", "statement": "AddContactConstraint registers a link at most once, rejects unknown links without changing anything, keeps earlier contacts in order, and after SetContact with one flag per contact the active contact dof and count equal the sums over active contacts.", "quantifier": "every sequence of registration, clearing and activation calls", "why_tests_cant": "Quantifies over call histories.", "anchors": ["src/dwbc.cpp:RobotData::AddContactConstraint", "src/dwbc.cpp:RobotData::ClearContactConstraint", "include/dwbc.h:RobotData::SetContact", "src/dwbc.cpp:RobotData::UpdateContactConstraint"]}
{"id": "C28", "title": "Stacked contact Jacobian contains exactly the active contacts", "statement": "After any SetContact call the stacked contact Jacobian is the concatenation of the Jacobians of the active contacts in registration order, with no stale rows, and the constraint matrix pairs each contact's rows with its own six force columns.", "quantifier": "every on/off pattern and sequence of contact switches", "why_tests_cant": "Quantifies over all histories of contact switching; stale rows appear only after particular histories.", "anchors": ["src/dwbc.cpp:RobotData::UpdateContactConstraint", "src/dwbc.cpp:RobotData::getContactConstraintMatrix"]}
{"id": "C29", "title": "Task registry stays consistent", "statement": "Adding tasks keeps one QP object per task, each added task becomes the lowest priority, the requested hierarchy index is honoured, and a target acceleration is accepted only for an existing task of matching dimension.", "quantifier": "every sequence of task registration calls", "why_tests_cant": "Quantifies over call histories.", "anchors": ["src/dwbc.cpp:RobotData::AddTaskSpace", "src/dwbc.cpp:RobotData::AddTaskLink", "src/dwbc.cpp:RobotData::SetTaskSpace", "src/dwbc.cpp:RobotData::ClearTaskSpace"]}
{"id": "C30", "title": "Wrongly sized state is rejected without effect", "statement": "UpdateKinematics called with position, velocity or acceleration vectors of the wrong length leaves every stored quantity unchanged; with right lengths the stored state becomes exactly the given vectors.", "quantifier": "every call history and vector length", "why_tests_cant": "Quantifies over call histories.", "anchors": ["src/dwbc.cpp:RobotData::UpdateKinematics"]}
{"id": "C31", "title": "QP wrapper solves the most recently supplied problem", "statement": "A successful SolveQPoases returns a solution of the problem given by the latest UpdateMinProblem/UpdateSubjectToAx(b)/UpdateSubjectToX calls: no stale matrix, bound or flag from an earlier problem is used, whether the solver is cold- or hot-started.", "quantifier": "every sequence of wrapper calls and solver outcomes", "why_tests_cant": "Quantifies over call histories including solver failures.", "anchors": ["src/qp_wrapper.cpp:CQuadraticProgram::SolveQPoases", "src/qp_wrapper.cpp:CQuadraticProgram::UpdateSubjectToAx", "src/qp_wrapper.cpp:CQuadraticProgram::InitializeProblemSize"]}
{"id": "C32", "title": "Hierarchical QP never sacrifices a higher level", "statement": "In the hierarchical QP, after the levels are solved in order, the equality residual of each level is left unchanged by all later levels.", "quantifier": "every number of levels, every constraint matrix, every solver answer", "why_tests_cant": "Induction over hierarchy depth.", "anchors": ["src/dwbc_hqp.cpp:HQP::solveSequential", "src/dwbc_hqp.cpp:HQP_Hierarch::solveSequentialSingle"]}
{"id": "C33", "title": "Hierarchical QP keeps higher-level inequalities", "statement": "Inequalities of a higher level stay satisfied up to that level's optimal violation at every later level, and the optimal violations are nonnegative.", "quantifier": "every number of levels, every constraint matrix, every exact solver answer", "why_tests_cant": "Induction over hierarchy depth plus an optimality argument.", "anchors": ["src/dwbc_hqp.cpp:HQP_Hierarch::solveSequentialSingle", "src/dwbc_hqp.cpp:HQP_Hierarch::normalizeConstraintMatrix"]}
{"id": "C34", "title": "LQP controller output obeys Newton-Euler dynamics and the torque bound", "statement": "The hierarchical-QP controller starts from a point that satisfies the floating-base dynamics and torque bounds exactly, so the final accelerations and contact forces satisfy the floating-base equation exactly and the implied torque lies within the bound.", "quantifier": "every robot, contact set and task set", "why_tests_cant": "Combination of hierarchy induction and model data for all matrices.", "anchors": ["src/dwbc.cpp:RobotData::ConfigureLQP", "src/dwbc_hqp.cpp:HQP::solveSequential"]}
{"id": "C35", "title": "Joint-acceleration QP output is dynamically consistent", "statement": "A feasible answer of the joint-acceleration QP satisfies full dynamics with the returned torque, zero contact acceleration, torque and acceleration bounds, contact inequalities, and keeps the task accelerations achieved at previous levels. The levels are all answered exactly when the robot has such a motion at all; otherwise the first call reports failure and changes nothing.", "quantifier": "every robot, contact set and task stack", "why_tests_cant": "Statement about every feasible point of a family of QPs.", "anchors": ["src/dwbc.cpp:RobotData::CalcSingleTaskTorqueWithJACC_QP"]}
{"id": "C36", "title": "Deleting a link keeps the kinematic tree well formed", "statement": "After DeleteLink the remaining links form exactly the tree without the removed subtree, every parent/child reference is renumbered consistently, and tasks and contacts on surviving links still refer to the same physical link.", "quantifier": "every tree and every deleted link", "why_tests_cant": "Quantifies over all trees and index shifts.", "anchors": ["src/dwbc.cpp:RobotData::DeleteLink", "src/dwbc.cpp:RobotData::InitAfterModelMod"]}
{"id": "C37", "title": "Total mass follows model modifications", "statement": "total mass equals the sum of link masses after any sequence of DeleteLink, AddLink, ChangeLinkToFixedJoint and ChangeLinkInertia.", "quantifier": "every sequence of model modifications", "why_tests_cant": "Quantifies over edit histories.", "anchors": ["src/dwbc.cpp:RobotData::DeleteLink", "src/dwbc.cpp:RobotData::AddLink", "src/dwbc.cpp:RobotData::ChangeLinkToFixedJoint", "src/dwbc.cpp:RobotData::ChangeLinkInertia"]}
{"id": "C38", "title": "Link and joint tables stay aligned", "statement": "After any sequence of model modifications there is exactly one joint record per link (excluding the COM entry), so later updates never read outside the joint table.", "quantifier": "every sequence of model modifications", "why_tests_cant": "Quantifies over edit histories.", "anchors": ["src/dwbc.cpp:RobotData::AddLink", "src/dwbc.cpp:RobotData::DeleteLink", "src/dwbc.cpp:RobotData::InitAfterModelMod", "src/dwbc.cpp:RobotData::UpdateKinematics"]}
{"id": "C39", "title": "Reduced model partitions the joints", "statement": "The contact-chain joints, the non-contact joints and the six base coordinates partition the system's degrees of freedom, so contact dof + non-contact dof + 6 equals the system dof.", "quantifier": "every tree and every set of active contacts", "why_tests_cant": "Quantifies over all trees and contact sets.", "anchors": ["src/dwbc.cpp:RobotData::ReducedDynamicsCalculate"]}
{"id": "C40", "title": "Reduced inertia equals the projected full inertia", "statement": "The reduced inverse inertia, computed blockwise, equals J_R*A^-1*J_R^T, and the dynamically consistent inverse computed blockwise equals A_R*J_R*A^-1 when the coupling between chains goes through the base only.", "quantifier": "every mass matrix and reduction Jacobian", "why_tests_cant": "Matrix identity for all sizes.", "anchors": ["src/dwbc.cpp:RobotData::ReducedDynamicsCalculate"]}
{"id": "C41", "title": "Reduced contact dynamics agree with the full model", "statement": "Contact inertia, contact forces and gravity projection computed in the reduced model equal those of the full model.", "quantifier": "every robot whose contacts involve contact-chain joints only", "why_tests_cant": "Matrix identity for all sizes.", "anchors": ["src/dwbc.cpp:RobotData::ReducedCalcContactConstraint", "src/dwbc.cpp:RobotData::ReducedCalcGravCompensation"]}
{"id": "C42", "title": "Binary matrix log round trip", "statement": "A matrix written with write_binary is accepted by check_binary unchanged, and a file with a different shape or a value differing beyond tolerance is reported as different.", "quantifier": "every matrix size and content", "why_tests_cant": "Quantifies over all contents.", "anchors": ["include/dwbc_util.h:write_binary", "include/dwbc_util.h:check_binary"]}
{"id": "C43", "title": "Python bridge state reordering is lossless", "statement": "The bridge maps a MuJoCo-ordered state (w-first quaternion) to the library order as a bijection: no coordinate is lost or duplicated and the quaternion components land in the right slots; the torque command it returns is the sum of the controller's torques.", "quantifier": "every joint count and state vector", "why_tests_cant": "Quantifies over all joint counts.", "anchors": ["src/pybind/rl_wbc_bridge.cpp:RlWBCBridge::UpdateKinematics", "src/pybind/rl_wbc_bridge.cpp:RlWBCBridge::CalcTorque"]}
{"id": "C44", "title": "Task PD law", "statement": "The PD feedback returns the feed-forward acceleration when the tracking error is zero, and pushes toward the reference: with gains Kp, Kd the closed-loop error obeys the second-order linear equation.", "quantifier": "every gain, state and trajectory", "why_tests_cant": "Real-parameter identity.", "anchors": ["src/task.cpp:TaskSpace::GetFstarPosPD", "src/task.cpp:TaskSpace::GetFstarRotPD"]}
{"id": "C45", "title": "Copying kinematics reproduces the source", "statement": "After CopyKinematicsData the target holds the same kinematic state, contacts and tasks as the source, and the source is unchanged.", "quantifier": "every pair of robots with the same model", "why_tests_cant": "Quantifies over states; damage to the source shows only for particular histories.", "anchors": ["src/dwbc.cpp:RobotData::CopyKinematicsData"]}
{"id": "C46", "title": "Threaded task control respects limits and priorities", "statement": "The threaded task controller gives the same guarantees as the sequential one: torque limits and contact constraints hold for the returned torque and higher priorities are undisturbed.", "quantifier": "every number of tasks and solver answer", "why_tests_cant": "Depends on accumulation across levels.", "anchors": ["src/dwbc.cpp:RobotData::CalcTaskSpaceTorqueHQPWithThreaded"]}
{"id": "C47", "title": "QP task control is defined for every contact set", "statement": "CalcTaskControlTorque in QP mode performs only well-formed matrix operations and returns 0 or 1, whichever contacts are active, in particular in single support.", "quantifier": "all robots, contact sets, task lists and solver answers", "why_tests_cant": "The outcome depends on how the sizes of the contact null-space matrix and the QP answer relate for each number of active contacts; the shipped tests use double support only.", "anchors": ["src/dwbc.cpp:RobotData::CalcTaskControlTorque", "src/dwbc.cpp:RobotData::CalcContactConstraint", "src/wbd.cpp:CalculateContactConstraint"]}
{"id": "C48", "title": "QP control leaves a safe command alone", "statement": "If gravity plus the prioritised task torque already respects the torque limits and contact constraints at every level, QP task control that reports success commands exactly that prioritised task torque.", "quantifier": "all robots with 6-D contacts, task lists, limits and exact solvers", "why_tests_cant": "Needs every command for which the unmodified torque is safe; sampling cannot rule out an unwanted modification elsewhere.", "anchors": ["src/dwbc.cpp:RobotData::CalcTaskControlTorque", "src/dwbc.cpp:RobotData::CalcSingleTaskTorqueWithQP"]}
{"id": "C49", "title": "Closed-form redistribution torque", "statement": "In double support with twelve contact rows, the torque computed by the non-QP contact redistribution leaves all joint and task accelerations unchanged and turns the contact wrenches into exactly the redistributed ones.", "quantifier": "every robot state, contact configuration with two six-dimensional contacts, and input torque", "why_tests_cant": "Quantifies over all dynamics and torques.", "anchors": ["src/dwbc.cpp:RobotData::CalcContactRedistribute", "src/wbd.cpp:ContactRedistributetwomod"]}
{"id": "C50", "title": "AxisTransform2V is the rotation between two directions", "statement": "AxisTransform2V(from, to) returns a proper rotation that takes the direction of from to the direction of to.", "quantifier": "every pair of nonzero vectors", "why_tests_cant": "Continuous quantification; fails only on the measure-zero set of opposite vectors.", "anchors": ["src/math.cpp:AxisTransform2V"]}
{"id": "C51", "title": "Spatial transforms compose and preserve power", "statement": "The 6x6 spatial transform and adjoint built from a pose compose like rigid motions (the transform of a product of poses is the product of the transforms), and transforming a twist and the dual wrench leaves their power unchanged.", "quantifier": "every pair of poses, every twist and wrench", "why_tests_cant": "Algebraic identity over all rotations and translations.", "anchors": ["src/math.cpp:spatialTransformMatrix", "src/link.cpp:Link::GetAdjointMatrix"]}
{"id": "C52", "title": "Task rows track the registered frames", "statement": "After UpdateTaskSpace, for every task built from links, the rows of the task Jacobian belonging to each task link map the generalised velocity to the velocity (and, for 6D and rotation modes, the angular velocity) of the frame the user registered - link frame, link centre of mass, user-given point, or robot centre of mass - in the order of registration, and the desired acceleration is the PD law at the true position and velocity of that same frame.", "quantifier": "every number of tasks, every sequence of task links and modes in each task, every robot motion, time, gain and trajectory", "why_tests_cant": "row offsets depend on all preceding links of the task, and a wrong frame shows only for configurations in which the link is rotated or its point moves; tests use a handful of modes in the upright pose", "anchors": ["src/dwbc.cpp: RobotData::UpdateTaskSpace", "src/link.cpp: Link::UpdatePos, UpdateJac, GetPointJac", "src/task.cpp: TaskLink::GetFstarPosPD, GetFstarRotPD"]}
{"id": "C53", "title": "Task link settings take effect until replaced", "statement": "After any sequence of SetTrajectoryQuintic, SetTrajectoryRotation, SetTaskGain and SetPDerrorRegulation calls on a task link, its position and orientation feedback use the gains last set (zero before the first), the position trajectory last set in the time window given with it, the orientation trajectory last set in the time window given with it, and errors limited as last requested.", "quantifier": "every sequence of setter calls with every argument, every time and state", "why_tests_cant": "tests set each trajectory once, with equal times, and never use the error limits; interactions appear only for particular orders of calls", "anchors": ["src/task.cpp: TaskLink::SetTrajectoryQuintic, SetTrajectoryRotation, SetTaskGain, SetPDerrorRegulation, GetFstarPosPD, GetFstarRotPD"]}
{"id": "C54", "title": "Redistributing again changes nothing", "statement": "Once contact forces have been redistributed, calling CalcContactRedistribute again in the same state, with the torques it left behind, keeps the contact torque and therefore the control torque; this holds with and without QP.", "quantifier": "every robot state, contact configuration and input torque, every number of further calls", "why_tests_cant": "Tests call redistribution once per control cycle; stability is about every number of repetitions and every torque.", "anchors": ["src/dwbc.cpp:RobotData::CalcContactRedistribute", "src/wbd.cpp:ContactRedistributetwomod"]}
{"id": "C55", "title": "Task control with the reduced model moves the robot as the full model does", "statement": "Whenever the tasks can be controlled with the full model, ReducedCalcTaskControlTorque without QP gives a command, and with gravity compensation from the same model the robot moves exactly as under CalcTaskControlTorque: same accelerations of base and joints, so every task is served with the same priority.", "quantifier": "every robot, state and contact configuration the reduced model covers, every stack of tasks of any number, kind and order", "why_tests_cant": "Tests compare torques of one robot in one posture with one or two tasks; the claim is about every stack and order.", "anchors": ["src/dwbc.cpp:RobotData::ReducedCalcTaskSpace, ReducedCalcTaskControlTorque", "src/task.cpp:TaskSpace::CalcJKT_R", "src/wbd.cpp:CalculateJKT_R"]}
{"id": "C56", "title": "The reduced model treats each task according to what it commands and the present contacts", "statement": "At every update a task is treated as a centre-of-mass task, a task on the contact chains or a task outside them according to the links (or Jacobian) it commands and the contacts present at that update, and the n-th task outside the contact chains is handled as the n-th one.", "quantifier": "every sequence of contact switches and updates, every task stack, every link tree", "why_tests_cant": "Tests classify once after start-up with constant contacts; the claim is about every history of contact switches.", "anchors": ["src/dwbc.cpp:RobotData::ReducedCalcTaskSpace (task type classification)", "include/dwbc_task.h:TaskSpace"]}
{"id": "C57", "title": "The hierarchical QP controller keeps contacts and attains tasks whenever that is possible", "statement": "Whenever accelerations and contact forces exist that obey the dynamics and torque bounds, hold the contacts still, respect the contact-force and acceleration limits and give the commanded task accelerations, the hierarchical-QP controller answers with such accelerations and forces; tasks of lower priority give way to those above.", "quantifier": "every robot, contact set and task stack, every exact QP solver", "why_tests_cant": "A test sees single postures and accepts a tolerance; the claim is about all robots and depends on how a level trades its own goal against the energy term.", "anchors": ["src/dwbc.cpp:RobotData::ConfigureLQP", "src/dwbc.cpp:RobotData::CalcControlTorqueLQP", "src/dwbc_hqp.cpp:HQP_Hierarch::updateCostMatrix"]}
{"id": "C58", "title": "QP task control with the reduced model is safe for the full robot", "statement": "When task control with the reduced model and QP reports success, the full robot under gravity compensation, task torque and a suitable internal contact torque keeps every contact and every torque limit, and commands that are admissible are carried out unchanged.", "quantifier": "every robot, contact set, task stack (on the contact chains or not), torque limit, and every sound (exact) QP solver", "why_tests_cant": "The QP is posed on a six-joint stand-in for the upper body; whether its constraints say anything about the real joints depends on an identity over all postures and task mixes.", "anchors": ["src/dwbc.cpp:RobotData::ReducedCalcTaskControlTorque", "src/dwbc.cpp:RobotData::CalcSingleTaskTorqueWithQP_R", "src/dwbc.cpp:RobotData::CalcSingleTaskTorqueWithQP_R_NC"]}
{"id": "C59", "title": "Contact redistribution with the reduced model equals redistribution of the full robot", "statement": "Redistribution with the reduced model reports success exactly when some joint torque of the full robot exists that moves nothing, keeps every contact and respects the limits, and then returns such a torque, the one with the least weighted contact force; a torque from an earlier contact situation is never kept.", "quantifier": "every robot, contact set, task torque and history of contact switches; every exact and complete QP solver", "why_tests_cant": "Existence over all joint torques of the full robot against a search in the reduced model; the stale torque shows only after particular switching orders.", "anchors": ["src/dwbc.cpp:RobotData::ReducedCalcContactRedistribute", "src/dwbc.cpp:RobotData::CalcContactRedistributeR", "src/dwbc.cpp:RobotData::ReducedCalcContactConstraint"]}
{"id": "C60", "title": "QP task control fails only when the first task leaves no safe torque, and failing leaves a safe state", "statement": "In double support QP task control reports failure exactly when no acceleration of the first task, together with any torque that moves nothing, is safe (torque limits met, no contact tips or slips); lower tasks can never make it fail, and a robot that can stand safely never sees a failure. If a solver gives up on a lower task, the torque left is the safe torque of the tasks above it. The first task gets the acceleration closest to the command that is safe, and contact redistribution afterwards changes nothing.", "quantifier": "every robot with more than six contact rows, every task stack and command, every sound QP solver (complete or exact where stated)", "why_tests_cant": "A test sees single stacks that happen to succeed; that lower tasks cannot cause failure and that the first task is the closest possible ranges over all stacks, commands and all safe torques.", "anchors": ["src/dwbc.cpp:RobotData::CalcTaskControlTorque", "src/dwbc.cpp:RobotData::CalcSingleTaskTorqueWithQP", "src/dwbc.cpp:RobotData::CalcContactRedistribute"]}
{"id": "C61", "title": "Torque limits and joint count survive changes of the model", "statement": "A torque limit set by the user stays in force for the joints it was set for until another one is set, whatever is done to the model in between; a limit of the wrong size is refused; and the number of joints the object works with is always that of its model.", "quantifier": "every history of loading models, setting limits, adding and deleting links, fixing joints and changing inertias; floating and fixed base", "why_tests_cant": "Tests set the limit once, after the last change of the model; the claim is about every order of calls.", "anchors": ["src/dwbc.cpp:RobotData::SetTorqueLimit", "src/dwbc.cpp:RobotData::InitializeMatrix", "src/dwbc.cpp:RobotData::InitAfterModelMod", "src/dwbc.cpp:RobotData::CalcSingleTaskTorqueWithQP"]}
{"id": "C62", "title": "The joint-acceleration QP of the reduced model plans real motions within the bounds", "statement": "When the joint-acceleration QP of the reduced model reports success at every level, sending an answer to the joints makes the robot move without moving its contacts, with exactly the predicted contact forces and contact-chain accelerations; no contact tips or slips, every joint torque stays within the bound the function imposes (200) and every joint acceleration within 10; every level gives the levels above the acceleration they had achieved; and no better motion of the robot is excluded. All levels are answered exactly when such a motion exists.", "quantifier": "every robot, contact state, task stack of any depth, answer of a sound (or exact) QP solver, and every torque added in the null space of the joints outside the contact chains", "why_tests_cant": "The benchmarks time the function on one robot posture and never send the torque; the claim relates two systems of equations for every robot.", "anchors": ["src/dwbc.cpp:RobotData::CalcSingleTaskTorqueWithJACC_QP_R", "src/dwbc.cpp:RobotData::ReducedDynamicsCalculate", "tests/sp_test/dof_comparison_jacc.cpp"]}
{"id": "C63", "title": "The joint-acceleration QP for the joints outside the contact chains carries out the reduced plan", "statement": "After the reduced model has planned a motion (C62), the call for a task of a link outside the contact chains reports success only if the robot, driven by the planned torques on the contact chains and by the torques of this call on the other joints, moves exactly as planned, keeps its contacts, gives the link the commanded acceleration, and keeps every torque within the bounds the function builds; a command that conflicts with the plan gives way to it.", "quantifier": "every robot, contact state, planned motion of the reduced model, link task, command and posture, and every sound (or exact) QP solver", "why_tests_cant": "The only caller passes a vector of the wrong size, so the call is refused before anything is computed; and the claim relates three systems of equations for every robot and plan.", "anchors": ["src/dwbc.cpp:RobotData::CalcSingleTaskTorqueWithJACC_QP_R_NC", "src/dwbc.cpp:RobotData::CalcSingleTaskTorqueWithJACC_QP_R", "tests/sp_test/dof_comparison_jacc.cpp"]}
{"id": "C64", "title": "The hierarchical controller on the reduced model plans motions the robot carries out", "statement": "The hierarchical controller of the reduced model takes any list of tasks; every answer obeys the reduced dynamics within the torque bounds of the joints, a robot that can be held at rest is held at rest, and together with the answer of the free-joint controller it is a motion of the whole robot: with the torques computed from both answers the robot moves as planned, keeps its contacts, and a task of a free link the arm can carry out is carried out.", "quantifier": "every robot, contact state, list of tasks with their kinds and commands, reduced plan and posture, and every sound (or exact) solver and null-space routine", "why_tests_cant": "The benchmark that calls these functions only times them, with one task order; the claim ranges over all task lists and robots and relates two chained optimisations to the motion of a third system.", "anchors": ["src/dwbc.cpp:RobotData::CalcControlTorqueLQP_R", "src/dwbc.cpp:RobotData::CalcControlTorqueLQP_R_NC", "src/dwbc.cpp:RobotData::ConfigureLQP_R", "src/dwbc.cpp:RobotData::ConfigureLQP_R_NC", "src/dwbc_hqp.cpp:HQP::solveSequential"]}
{"id": "C65", "title": "Configuring a hierarchical controller again replaces its configuration", "statement": "A hierarchical solver object can be configured again for the current robot, contacts and tasks, any number of times: each configuration is accepted and replaces the previous one, so that the answers are those of a new object with that configuration and a removed task is no longer followed.", "quantifier": "every sequence of configurations (robots, contact states, task lists) of one solver object, and every exact solver and null-space routine", "why_tests_cant": "The benchmarks configure each object once per robot and never remove a task or change contacts in between; the claim ranges over all histories of one object.", "anchors": ["src/dwbc.cpp:RobotData::ConfigureLQP", "src/dwbc.cpp:RobotData::CalcControlTorqueLQP", "src/dwbc_hqp.cpp:HQP::addHierarchy", "src/dwbc_hqp.cpp:HQP_Hierarch::initialize", "src/dwbc_hqp.cpp:HQP_Hierarch::updateConstraintMatrix", "src/dwbc_hqp.cpp:HQP::prepare", "src/dwbc_hqp.cpp:HQP::solveSequential", "tests/sp_test/jacc_compare.cpp"]}
{"id": "C66", "title": "Solving a configured hierarchy again without initialisation", "statement": "After one solve with initialisation, a hierarchical solver may be given new matrices of the same sizes and solved again without initialisation, any number of times; each such solve is defined and its answers are those of a new object given the same matrices, in particular every level keeps the inequalities of the levels above it.", "quantifier": "every sequence of level matrices with unchanged numbers of rows, every exact solver and every null-space routine", "why_tests_cant": "The benchmarks initialise once and then perturb the state slightly, so the number of free directions of a level never changes; the claim ranges over all sequences, including those through singular configurations.", "anchors": ["src/dwbc_hqp.cpp:HQP::solveSequentialSingle", "src/dwbc_hqp.cpp:HQP::solveSequential", "src/dwbc_hqp.cpp:HQP::prepare", "src/dwbc_hqp.cpp:HQP_Hierarch::solveOSQP", "src/dwbc.cpp:RobotData::CalcControlTorqueLQP", "tests/sp_test/dof_comparison.cpp", "tests/sp_test/jacc_compare.cpp"]}
{"id": "C67", "title": "Lifetime of the solvers inside a hierarchical solver", "statement": "However a program makes, extends, copies and destroys hierarchical solver objects, no inner solver is deleted twice or used after deletion; when an object is destroyed the memory of its inner solvers is returned; and a copy of an object can be solved without affecting the original.", "quantifier": "every history of making objects, adding levels (with or without reallocation), copying, destroying and solving, on any number of objects", "why_tests_cant": "Memory that is never returned does not change any result, and sharing shows only in histories that interleave solves of an original and its copy; the claim ranges over all histories.", "anchors": ["src/dwbc_hqp.cpp:HQP_Hierarch::~HQP_Hierarch", "src/dwbc_hqp.cpp:HQP::addHierarchy", "src/dwbc_hqp.cpp:HQP_Hierarch::initialize", "src/dwbc_hqp.cpp:HQP_Hierarch::solveOSQP", "include/dwbc_hqp.h:HQP_Hierarch"]}
{"id": "C68", "title": "Redistribution without a QP on the reduced model", "statement": "With two six-dimensional contacts, redistribution of the contact forces without a QP on the reduced model gives the contact torque that the full model gives for the same command, or fails when the full model fails: it moves nothing, and the contact wrenches become the redistributed ones with the same resultant.", "quantifier": "every robot with two six-dimensional contacts whose joints are separate from the other joints, every number of joints in the contact chains, every command torque, pose and factorisation", "why_tests_cant": "The only test compares nothing and uses a robot with two six-joint legs; the claim ranges over all robots, poses and torques.", "anchors": ["src/dwbc.cpp:RobotData::CalcContactRedistributeR", "src/dwbc.cpp:RobotData::ReducedCalcContactRedistribute", "src/wbd.cpp:ContactRedistributetwomod", "tests/sp_test/redu_dyn_test.cpp"]}
{"id": "C69", "title": "Failure of task control on the reduced model", "statement": "With several feet on the ground, task control with quadratic programmes on the reduced model reports failure only when no acceleration of the first task can be made safe by a torque that moves nothing; lower tasks never make it fail.  After a failure it leaves a task torque that the redistribution called next agrees with, so that the torque sent keeps the contacts.", "quantifier": "every robot whose contact chains are separate from the other joints, every list of tasks, torque limit, pose and every sound solver that answers every solvable problem", "why_tests_cant": "A failing solver or an infeasible first task is an exceptional state that depends on pose, limits and friction; that lower tasks never cause it, and what the torque left behind does to the contacts, are statements about all of them.", "anchors": ["src/dwbc.cpp:RobotData::ReducedCalcTaskControlTorque", "src/dwbc.cpp:RobotData::CalcSingleTaskTorqueWithQP_R", "src/dwbc.cpp:RobotData::CalcSingleTaskTorqueWithQP_R_NC", "src/dwbc.cpp:RobotData::ReducedCalcContactRedistribute"]}
{"id": "C70", "title": "The reduced model follows modifications of the robot", "statement": "After any sequence of DeleteLink, AddLink, ChangeLinkToFixedJoint and ChangeLinkInertia, and after loading another model into the same object, ReducedDynamicsCalculate splits exactly the coordinates the robot has now into the contact-chain joints, the non-contact joints and the six base coordinates, and COM tasks are still recognised.", "quantifier": "every loaded robot, every history of modifications or reloads, and every set of active contacts", "why_tests_cant": "Quantifies over edit histories and contact sets; the tests compute the reduced model on freshly loaded robots only.", "anchors": ["src/dwbc.cpp:RobotData::ReducedDynamicsCalculate", "src/dwbc.cpp:RobotData::InitAfterModelMod", "src/dwbc.cpp:RobotData::InitModelData", "src/dwbc.cpp:RobotData::ReducedCalcTaskSpace"]}
{"id": "C71", "title": "Fixing a link, re-adding it or rebuilding the model keeps frames and bodies", "statement": "ChangeLinkToFixedJoint of a link without children, after a kinematics update, leaves every other link where it was in every configuration in which the joint has the angle it had at the update, and gives the parent the united body; deleting a link and adding it again with its own joint and link records restores every frame and body; a model built with InitModelWithLinkJoint from the records of a robot places the links where the robot has them.", "quantifier": "every robot whose parents come first, whose joints turn or slide and whose joint frames are rotations, every link without children, every later configuration", "why_tests_cant": "Quantifies over robots, links and all later configurations; a frame that is transposed by mistake looks right on models whose frames are not turned.", "anchors": ["src/dwbc.cpp:RobotData::ChangeLinkToFixedJoint", "src/dwbc.cpp:RobotData::AddLink", "src/dwbc.cpp:RobotData::InitModelWithLinkJoint", "src/dwbc.cpp:RobotData::InitModelData", "src/dwbc.cpp:RobotData::UpdateKinematics", "src/link.cpp:Joint::ToRBDLJoint"]}
{"id": "C72", "title": "The configuration vector keeps its layout when the robot is modified", "statement": "After any sequence of AddLink and DeleteLink, every entry of the configuration vector belongs to exactly one coordinate of one joint, the joints come in body order, the quaternion's last component comes behind all others, the sizes of the configuration and velocity vectors fit, and a configuration for the robot before a deletion becomes one for the robot after it by taking out the entries of the deleted joint.", "quantifier": "every history of added and deleted bodies, every joint type and number of degrees of freedom", "why_tests_cant": "Quantifies over edit histories; a wrong index shows only when some later joint reads the entry of another.", "anchors": ["src/dwbc.cpp:RobotData::DeleteLink", "src/dwbc.cpp:RobotData::AddLink", "src/dwbc.cpp:RobotData::InitAfterModelMod"]}
{"id": "C73", "title": "The derivative of a link's Jacobian", "statement": "GetJacDot returns the time derivative of the link's Jacobian for the motion the robot is in.", "quantifier": "every robot with a link whose chain of joints reaches the world, every differentiable motion, every time", "why_tests_cant": "A derivative is a statement about all nearby times; a sample compares a finite difference at one.", "anchors": ["src/link.cpp:Link::GetJacDot", "src/link.cpp:Link::GetPointJac", "src/link.cpp:Link::UpdateJac"]}
{"id": "C74", "title": "The order of the control calls", "statement": "A control cycle (UpdateKinematics, SetContact, CalcContactConstraint, SetTaskSpace for every task, CalcGravCompensation, CalcTaskControlTorque, CalcContactRedistribute) gives the same torques, return values and reported contact force whatever was called before, and when it reports success in double support the torque sent respects the limits and keeps exactly the contacts switched on, for the state given in that cycle. Every order of these calls is defined, and a state given after the contact calculation is taken into account.", "quantifier": "every robot, every list of registered six-dimensional contacts and tasks, every history of calls, every state, every choice of contacts", "why_tests_cant": "The members of RobotData carry results between calls, so the result could depend on any earlier sequence of calls; a test runs one sequence.", "anchors": ["src/dwbc.cpp:RobotData::UpdateKinematics", "include/dwbc.h:RobotData::SetContact", "src/dwbc.cpp:RobotData::CalcContactConstraint", "src/dwbc.cpp:RobotData::CalcGravCompensation", "src/dwbc.cpp:RobotData::CalcTaskControlTorque", "src/dwbc.cpp:RobotData::CalcContactRedistribute", "src/dwbc.cpp:RobotData::getContactForce", "src/pybind/rl_wbc_bridge.cpp:CalcTorque"]}
{"id": "C75", "title": "Torque limits on the Python bridge", "statement": "The torque command returned by the Python bridge respects the torque limits set on its robot (its constructor sets 300 for every joint), and the robot standing on the contacts switched on follows the command of the first task.", "quantifier": "every robot, every history of bridge calls, every state, every contacts, every task command", "why_tests_cant": "Whether a limit is ever reached depends on the commands of a learning agent; a test that stays below it cannot tell an applied limit from an ignored one.", "anchors": ["src/pybind/rl_wbc_bridge.cpp:RlWBCBridge::CalcTorque", "src/pybind/rl_wbc_bridge.cpp:RlWBCBridge::SetContact", "src/pybind/rl_wbc_bridge.cpp:RlWBCBridge::getTorqueCommand", "src/dwbc.cpp:RobotData::CalcTaskControlTorque", "src/dwbc.cpp:RobotData::CalcContactRedistribute"]}
{"id": "C76", "title": "Full and reduced control calls on one robot", "statement": "The reduced control calls may be mixed with the full ones on one robot: what a control cycle with the reduced model sends depends only on the state, contacts and commands given in it, a cycle that gives gravity compensation alone holds the robot still, and the contact force reported for a torque after the cycle is the one the ground exerts under that torque in the present state.", "quantifier": "every robot, every history of full and reduced control calls before, every state, contacts and commands of the cycle", "why_tests_cant": "The reduced calls share members with the full ones and leave some of them from earlier calls; whether that matters depends on what was called before, and a test fixes one history (tests/sp_test/redu_dyn_test.cpp runs one full cycle and one reduced cycle in the same state).", "anchors": ["src/dwbc.cpp:RobotData::ReducedDynamicsCalculate", "src/dwbc.cpp:RobotData::ReducedCalcContactConstraint", "src/dwbc.cpp:RobotData::ReducedCalcGravCompensation", "src/dwbc.cpp:RobotData::ReducedCalcTaskSpace", "src/dwbc.cpp:RobotData::ReducedCalcTaskControlTorque", "src/dwbc.cpp:RobotData::ReducedCalcContactRedistribute", "src/dwbc.cpp:RobotData::getContactForce", "tests/sp_test/redu_dyn_test.cpp"]}
{"id": "C77", "title": "The rank threshold of the pseudo-inverse", "statement": "The threshold the pseudo-inverse uses to find the rank (1e-6 of the largest pivot) does not change what the controller does: gravity compensation holds every joint still, every task acceleration is the commanded one, and the contact computation returns whenever the contacts allow it, whatever the ratio of the joint inertias or of the task rows.", "quantifier": "every matrix and every column order; every robot with symmetric positive definite inertia, every set of contacts, every gravity load, every task", "why_tests_cant": "The cut is a jump that happens at one ratio of magnitudes: a light finger against a heavy torso, an arm close to its singularity, rows in different units. A test robot has one set of inertias, and configurations close enough to the singularity are not hit by sampling.", "anchors": ["src/wbd.cpp:PinvCODWB", "src/math.cpp:PinvCOD", "include/dwbc_math.h:COD_THRESHOLD", "src/wbd.cpp:CalculateContactConstraint", "src/wbd.cpp:CalculateGravityCompensation", "src/wbd.cpp:CalculateJKT"]}
{"id": "C78", "title": "The torque command varies continuously with the state", "statement": "A small change of the state (inertia, contact and task Jacobians, gravity load, commanded accelerations, measured wrenches) makes a small change of the torque command: gravity compensation, task torque and redistribution have no jumps while the contact set stays the same.", "quantifier": "every robot with symmetric positive definite inertia, every family of states with continuous inertia, Jacobians, loads and commands over any topological space, every number of contacts and tasks, every exact complete QP solver", "why_tests_cant": "Jumps sit on thin sets of states (feet in line, a QP on the edge of feasibility, a vanishing denominator). Sampled states are on one side or the other, and a regression test compares single states with recorded values, never two neighbouring states.", "anchors": ["src/wbd.cpp:CalculateContactConstraint", "src/wbd.cpp:CalculateGravCompensation", "src/wbd.cpp:CalculateJKT", "src/wbd.cpp:ContactRedistributetwomod", "src/dwbc.cpp:CalcTaskControlTorque", "src/dwbc.cpp:CalcSingleTaskTorqueWithQP", "src/pybind/rl_wbc_bridge.cpp:calculated_command_"]}
{"id": "C79", "title": "A measuring thread and a control thread can share a robot", "statement": "Two threads that exchange robot states with CopyKinematicsData and commands through a third robot object, taking turns as in tests/test_thread.cpp, never use the shared object at the same time, never wait for each other for ever, and produce under every schedule exactly what one thread doing the same calls in order would produce: each command the measuring thread receives was computed from the complete state it measured in the same cycle, with the control thread's own tasks and contact switches.", "quantifier": "all schedules of the two threads, all numbers of cycles, all ways to divide a copy into steps, all measured states, all control computations", "why_tests_cant": "a test run sees one schedule out of unboundedly many; tests/test_thread.cpp checks nothing but that it ends", "anchors": ["tests/test_thread.cpp: tlocker, producer, consumer, alone", "src/dwbc.cpp: RobotData::CopyKinematicsData"]}
{"id": "C80", "title": "A robot gives the same joint torques wherever it stands and whatever it faces", "statement": "Turn a robot about the vertical and move it, with its contacts, its task Jacobians, trajectories and commanded accelerations turned and moved with it. Then UpdateKinematics finds the same robot turned and moved (centre of mass, its Jacobian, velocity and inertia, mass matrix, weight), getContactForce and getZMP report the turned forces and the turned and moved zero moment point, the PD commands of its tasks are the turned ones, and gravity compensation, task control (with and without QP) and contact redistribution (with and without QP) return the same values and the same joint torques.", "quantifier": "all headings, places, robots, contact sets, task stacks, trajectories, limits, exact solvers", "why_tests_cant": "tests hold the robot in one pose at the origin, facing along x; a frame mistake shows only in other headings", "anchors": ["src/dwbc.cpp: RobotData::UpdateKinematics, CalcGravCompensation, CalcTaskControlTorque, CalcContactRedistribute, getZMP, getContactForce", "src/link.cpp: Link::UpdateAll (rpy)", "src/task.cpp: TaskLink::GetFstarPosPD, GetFstarRotPD", "src/wbd.cpp: ContactRedistributetwomod"]}
{"id": "C81", "title": "The order in which contacts were registered does not change what the robot does", "statement": "Register the same contacts with AddContactConstraint in another order, and switch on the same ones. Then gravity compensation, task control (with and without QP) and contact redistribution (with and without QP) return the same joint torques, getContactForce reports the same wrench at every contact, and getZMP the same point.", "quantifier": "all robots, contact sets, orders of registration, subsets switched on, task stacks, limits, input torques, exact solvers", "why_tests_cant": "tests register the left foot, then the right foot; nothing compares the other order, and the order enters through row positions (first two, last six) in several places", "anchors": ["src/dwbc.cpp: RobotData::AddContactConstraint, UpdateContactConstraint, CalcContactConstraint, CalcGravCompensation, CalcTaskControlTorque, CalcContactRedistribute, getContactForce, getZMP", "src/wbd.cpp: CalculateContactConstraint, ContactRedistributetwomod"]}
{"id": "C82", "title": "A level of tasks commands the same however it is written down", "statement": "The joint torque of a cycle depends on what a task level asks for, not on how it was written: registering the links of a level in another order changes neither the torque nor the state left behind, and replacing the equations of a level by equivalent ones (other units, other axes, sums and differences of them) does not change the torque, neither with nor without the QP.", "quantifier": "every robot, state, contact set, list of levels, order of registering the links of each level, earlier commanded accelerations, and every invertible recombination of the rows of each level", "why_tests_cant": "The claim relates two programs (two set-ups of the same controller) over all robots and all recombinations; tests fix one order of registration and SI units.", "anchors": ["src/dwbc.cpp:UpdateTaskSpace", "src/dwbc.cpp:CalcTaskControlTorque", "src/dwbc.cpp:CalcSingleTaskTorqueWithQP", "src/task.cpp:AddTaskLink", "src/wbd.cpp:CalculateJKT"]}
{"id": "C83", "title": "Commands do what they promise while the robot moves", "statement": "At every joint and base velocity, not only at rest: a commanded task acceleration is attained, the contact forces the controller reports are those that act, a torque that is reported to keep the contacts keeps them, and a controlled point arrives at the end of its trajectory.", "quantifier": "every robot (list of links with masses, inertias, Jacobians and velocity-dependent accelerations), velocity, contact set, torque, task and gains", "why_tests_cant": "Velocity terms are zero in every standing pose a test can write down; they grow with the square of the velocity and depend on all masses.", "anchors": ["src/dwbc.cpp:UpdateKinematics", "src/dwbc.cpp:CalcGravCompensation", "src/dwbc.cpp:CalcTaskControlTorque", "src/dwbc.cpp:getContactForce", "src/dwbc.cpp:ConfigureLQP", "src/task.cpp:GetFstarPosPD"]}
{"id": "C84", "title": "How the joints are counted and measured does not matter", "statement": "Numbering the joints otherwise, or turning joint axes round, gives the same robot: the same contact forces and return values, and every commanded torque at its joint with the sign of its axis. The same holds for the units in which joint coordinates are measured.", "quantifier": "every robot, contact set, weight, list of tasks, torque limit, null space found by the decomposition and exact solver; every permutation of the joints and every choice of axis directions and units", "why_tests_cant": "A test uses one model file with one joint order and one set of axes; the orthogonal decompositions inside give other bases for every order, so equality of outcomes is a statement about all of them.", "anchors": ["src/wbd.cpp:CalculateContactConstraint", "src/wbd.cpp:PinvCODWB", "src/wbd.cpp:CalculateJKT", "src/dwbc.cpp:CalcGravCompensation", "src/dwbc.cpp:CalcTaskControlTorque", "src/dwbc.cpp:CalcContactRedistribute"]}
{"id": "C85", "title": "The units of mass and time do not matter", "statement": "A robot with mu times the masses, told to accelerate kappa times as fast under kappa times the gravity, gets mu*kappa times the torques for its weight, its tasks and its contact forces, the same return values, and mu*kappa times the reported contact forces; the ZMP stays where it is. Torque limits are scaled along. In particular the choice of the units of mass and time has no influence.", "quantifier": "every robot, contact set, weight, list of tasks, torque limit, null space found by the decomposition and exact solver; every positive mu and kappa", "why_tests_cant": "A test uses one robot in one set of units. A constant of the code that has a dimension is harmless for that robot and wrong for a lighter or a heavier one.", "anchors": ["src/wbd.cpp:CalculateContactConstraint", "src/wbd.cpp:CalculateJKT", "src/dwbc.cpp:CalcGravCompensation", "src/dwbc.cpp:CalcTaskControlTorque", "src/dwbc.cpp:CalcContactRedistribute", "src/dwbc.cpp:getZMP", "src/dwbc.cpp:CalcSingleTaskTorqueWithJACC_QP"]}
{"id": "C86", "title": "Commands spend no needless effort", "statement": "The torque against the weight is the smallest one that holds the robot still. The torque for tasks causes, of all motions that keep the contacts and give the tasks the same accelerations, the one with the least energy of acceleration (Gauss' principle), and of all torques that cause this motion the command is the smallest.", "quantifier": "every robot, weight, set of contacts, stack of tasks and commanded accelerations; every other torque or motion with the same effect; with the QP every solver and return value", "why_tests_cant": "Optimality compares the command with every other torque and motion; a test can compare with finitely many.", "anchors": ["src/wbd.cpp:CalculateContactConstraint", "src/wbd.cpp:CalculateGravityCompensation", "src/wbd.cpp:CalculateJKT", "src/dwbc.cpp:CalcGravCompensation", "src/dwbc.cpp:CalcTaskControlTorque", "src/dwbc.cpp:CalcSingleTaskTorqueWithQP"]}
{"id": "C87", "title": "A control loop that runs at a fixed rate settles", "statement": "A link with a position task whose trajectory ends at rest, commanded by the feedback law once per control period with the commanded acceleration held in between, converges to the end of the trajectory and comes to rest there, for every positive gain.", "quantifier": "every gain, every control period, every trajectory, every position and velocity when the trajectory ends, every later time", "why_tests_cant": "A test runs finitely many periods with one set of gains; convergence and its exact dependence on gains and period are statements about infinite runs from every start.", "anchors": ["src/task.cpp: TaskLink::GetFstarPosPD", "src/task.cpp: TaskLink::SetTrajectoryQuintic", "src/task.cpp: TaskLink::SetTaskGain", "src/math.cpp: QuinticSpline"]}
{"id": "C88", "title": "A solver that stops at a tolerance does no more harm than its tolerance", "statement": "If the QP solver returns points that violate a constraint by at most ε and whose cost is at most δ above the optimum, then a reported success still means: joint torques exceed their limits by at most ε, every contact has to carry at most ε more than its friction and sole allow, the first task is missed by at most what is unavoidable plus the tolerance, and control of a robot that can stand does not fail.", "quantifier": "every robot state, every list of tasks and contacts, every solver with tolerances ε and δ", "why_tests_cant": "A test sees one solver on a few problems; what its rounding may do to torques, contacts and later levels is a statement about every admissible answer.", "anchors": ["src/dwbc.cpp: RobotData::CalcTaskControlTorque", "src/dwbc.cpp: RobotData::CalcSingleTaskTorqueWithQP", "src/dwbc.cpp: RobotData::CalcContactRedistribute", "src/qp_wrapper.cpp: CQuadraticProgram::SolveQPoases"]}
{"id": "C89", "title": "Only tasks put energy into the robot, and damping takes it out", "statement": "While the feet stay in place, gravity compensation and the redistribution of contact forces do no net work on a moving robot: under them alone its kinetic energy stays the same. A task changes the energy by the work of its task-space force on the task's velocity. The feedback command of a position task that has reached its target, with positive gains, never increases the energy.", "quantifier": "every robot, every motion of any length with resting feet, every torque of the redistribution, every stack of tasks, every positive gains", "why_tests_cant": "A test integrates one motion with rounding errors; conservation of energy along all motions and the sign of the power for all velocities are statements about every state.", "anchors": ["src/dwbc.cpp: RobotData::CalcGravCompensation", "src/dwbc.cpp: RobotData::CalcTaskControlTorque", "src/dwbc.cpp: RobotData::CalcContactRedistribute", "src/task.cpp: TaskLink::GetFstarPosPD"]}
{"id": "C90", "title": "Errors in the masses of the robot model do limited harm", "statement": "The masses and inertias in the robot model are never exact. If the weight is right, gravity compensation holds the robot still whatever the other inertial errors, and the reported contact forces are exact. If the weight is wrong, the robot stands still exactly when the contacts can carry the difference; otherwise it moves in the direction of the difference, so that an unknown payload sinks. A single task of one row still accelerates in the commanded direction, and a robot that is heavier than its model accelerates with no more energy than planned. A task attains its commanded acceleration.", "quantifier": "every true and every assumed mass matrix and weight, every contacts that fix the base, every task, every payload", "why_tests_cant": "A test compares a model with itself; the statements compare it with all robots that share its geometry.", "anchors": ["src/dwbc.cpp: RobotData::CalcGravCompensation", "src/dwbc.cpp: RobotData::CalcTaskControlTorque", "src/dwbc.cpp: RobotData::getContactForce", "src/wbd.cpp: CalculateJKT"]}
{"id": "C91", "title": "A robot and its mirror image get mirrored torques", "statement": "Legged robots are built left-right symmetric. The mirror image of a robot, in the mirrored posture, with mirrored contacts and mirrored task commands, gets the mirrored torques and contact forces; in particular a symmetric robot in a symmetric stance with symmetric commands gets symmetric torques and loads its two feet symmetrically, whichever foot was registered first.", "quantifier": "every robot, every pairing of left and right joints, every number of 6-D contacts, every stack of tasks, every exact QP solver", "why_tests_cant": "A test compares one posture with its mirror image; the claim relates every robot, posture and task stack with its image, through rank decompositions and QP solvers that know nothing of the symmetry.", "anchors": ["src/dwbc.cpp: RobotData::CalcGravCompensation", "src/dwbc.cpp: RobotData::CalcTaskControlTorque", "src/dwbc.cpp: RobotData::getContactForce", "src/dwbc.cpp: RobotData::CalcContactRedistribute", "src/dwbc.cpp: RobotData::AddContactConstraint", "src/dwbc.cpp: RobotData::UpdateKinematics"]}
{"id": "C92", "title": "The record kept with each task describes the last call", "statement": "Task control leaves with each task the change of its command, the contact part of the answer, an error flag and the torque of its level, for the caller to read. After a call these describe that call: a solved task has flag 0, the task that failed has flag 1 and no change, the commands plus the recorded changes are what the robot follows, and the recorded torques belong to them. Nothing recorded by an earlier call is left to be taken for the result of this one.", "quantifier": "every robot, contact set and task stack, every QP solver, every record left by earlier calls", "why_tests_cant": "A test reads the record after the calls it makes; whether an old value survives depends on which level failed, whether QP was used before, and on the solver.", "anchors": ["src/dwbc.cpp: RobotData::CalcTaskControlTorque", "src/dwbc.cpp: RobotData::CalcSingleTaskTorqueWithQP", "src/dwbc.cpp: RobotData::CalcSingleTaskTorqueWithQP2", "include/dwbc_task.h: TaskSpace"]}
{"id": "C93", "title": "QP control moderates commands: it never amplifies or reverses them, and small changes have small effects", "statement": "When torque limits and contacts keep task control with QP from following the commanded accelerations, what it commands instead is moderate. If the robot could safely stand still, then for every task of the stack the acceleration commanded in its place never points away from the command, is never larger than it, is no further from it than standing still, and is zero if the command is zero. For all tasks but the first this holds whether or not the robot could stand still. In every motion under the torque the first task accelerates so; a first task that is only damped does not speed up. And if the command of one task is changed, with the same tasks above it, the acceleration commanded in its place changes in the same direction and by no more. The joint-acceleration QP and the hierarchical controller do the same: the first task's acceleration is moderate if the robot could stand still, zero commands leave the robot standing, and at every level a change of the command has an effect in its direction that is no larger.", "quantifier": "every robot, set of 6-D contacts (more than six rows), task stack of any depth and number of rows, every exact QP solver (a different one for each call), every motion; the last part for every pair of commands", "why_tests_cant": "Tests try single commands; an amplified or reversed command appears only for particular combinations of active limits, contacts and higher tasks.", "anchors": ["src/dwbc.cpp: RobotData::CalcTaskControlTorque", "src/dwbc.cpp: RobotData::CalcSingleTaskTorqueWithQP", "src/dwbc.cpp: RobotData::ReducedCalcTaskControlTorque", "src/dwbc.cpp: RobotData::CalcSingleTaskTorqueWithQP_R", "src/dwbc.cpp: RobotData::CalcSingleTaskTorqueWithJACC_QP", "src/dwbc.cpp: RobotData::CalcControlTorqueLQP"]}
{"id": "C94", "title": "A command that could be followed safely is followed", "statement": "If some joint torque within the limits, with the contacts holding, gives the first task its commanded acceleration, then the controllers give it that acceleration. For task control with QP this is so when the motion asked for is the one of least acceleration energy that follows the command, in particular when the task and the contacts leave no motion free; it is false otherwise: one weak joint makes the controller follow half of a command the other joints could follow. The joint-acceleration QP and the hierarchical controller never follow a nonzero command exactly on any robot that could stand still: the joint-acceleration QP gives the centre of mass of a robot of mass M at most the share 100 / (100 + M) of its commanded acceleration.", "quantifier": "every robot, set of 6-D contacts, first task, command and any lower tasks, every exact QP solver, every motion; the share of the centre of mass for every list of links", "why_tests_cant": "Tests check that a torque comes out, on one robot; how much of a command is lost depends on mass, redundancy and the weakest joint.", "anchors": ["src/dwbc.cpp: RobotData::CalcTaskControlTorque", "src/dwbc.cpp: RobotData::CalcSingleTaskTorqueWithQP", "src/dwbc.cpp: RobotData::CalcSingleTaskTorqueWithJACC_QP", "src/dwbc.cpp: RobotData::ConfigureLQP", "src/dwbc.cpp: RobotData::CalcControlTorqueLQP"]}
{"id": "C95", "title": "Stronger motors and better footing never hurt", "statement": "Take a robot on which a controller succeeds, and widen the torque limits, enlarge the feet or raise the friction, leaving the state and the tasks as they are. The controller still succeeds. In order of priority, the first task that is commanded something else is commanded something nearer to what was asked, so that the first task is never further from its command; contact redistribution adds no more torque; and the joint-acceleration QP reaches its own objective at least as well. Room that is not used does not matter: if what is commanded after each task on the better robot is safe for the tighter one too, both are commanded the same. It is not so that every task gains: the wider the limits, the further a lower task can be from its command.", "quantifier": "every robot, every pair of limits and contact lists one at least as wide as the other, every list of tasks, every exact QP solver", "why_tests_cant": "A test compares outcomes for fixed limits; monotonicity relates every pair of robots, and its failure for lower tasks is easily taken for a tuning error.", "anchors": ["src/dwbc.cpp: RobotData::SetTorqueLimit", "src/dwbc.cpp: RobotData::CalcTaskControlTorque", "src/dwbc.cpp: RobotData::CalcContactRedistribute", "src/dwbc.cpp: RobotData::CalcSingleTaskTorqueWithJACC_QP", "src/dwbc.cpp: RobotData::ReducedCalcTaskControlTorque", "src/contact_constraint.cpp: ContactConstraint::SetFrictionRatio"]}
{"id": "C96", "title": "Between two commands that are followed, every blend is followed", "statement": "If CalcTaskControlTorque with QP follows two stacks of task commands exactly (it returns 1 and records a zero change f_star_qp_ for every task), then it also follows every blend of the two stacks exactly, the task torque is the same blend of the two task torques, and so is the resulting acceleration of every joint. In particular, if the robot could safely stand still, commands that are followed are also followed when they are scaled down by any factor between 0 and 1, with the torque scaled alike: slowing a motion down never makes it infeasible. Commands that are not followed exactly are not blended in this way.", "quantifier": "all robots, contacts, torque limits, task stacks of any length, pairs of command stacks, blending factors between 0 and 1, and QP solvers that return minimisers (and may differ between the calls)", "why_tests_cant": "It relates three calls with arbitrary stacks of commands, every factor and every solver; a test can sample a few interpolations on one robot.", "anchors": ["src/dwbc.cpp: RobotData::CalcTaskControlTorque, CalcSingleTaskTorqueWithQP", "include/task.h: TaskSpace::f_star_qp_"]}
{"id": "C97", "title": "A new Python bridge holds the robot upright with its feet and tasks registered", "statement": "Constructing the Python bridge loads the robot, puts it into its start posture (upright above the origin, not turned, legs bent alike, arms mirrored), registers the left and right foot as flat contacts and two tasks (base pose above upper-body orientation), and sets a torque limit of 300 for every joint. Whatever robot the model file describes, construction either gives such an object or is refused.", "quantifier": "all floating-base robots: every number of joints and every link table; with and without assertions compiled in", "why_tests_cant": "A test constructs the bridge for the one robot file it ships with; whether the hard-coded 40 numbers and link numbers 6, 12, 15 fit depends on the robot.", "anchors": ["src/pybind/rl_wbc_bridge.cpp: RlWBCBridge::RlWBCBridge", "src/dwbc.cpp: RobotData::LoadModelData, AddContactConstraint, AddTaskSpace, SetTorqueLimit"]}
{"id": "C98", "title": "A contact that carries no load can be switched off or on without a bump", "statement": "A robot stands still on some of its registered contacts. Switching off contacts that carry no load, or switching on contacts that do not move, leaves the motion, the torque and the forces at the other contacts possible as they were. When a single contact remains, the gravity compensation is the torque the robot stood under exactly if no other contact carried a load. When two or more contacts are on after the switch and the robot stood safely, QP task control does not fail, whatever the tasks are. Without QPs, the first task keeps the acceleration commanded for it across any switch.", "quantifier": "all robots with a positive definite mass matrix, every number of registered contacts, every two choices of contacts, all forces, torques, weights, limits and task lists; every sound and complete QP solver", "why_tests_cant": "A walking test switches between the two contact sets of one gait; the statement is about every pair of contact sets and every distribution of the load.", "anchors": ["include/dwbc.h: RobotData::SetContact", "src/dwbc.cpp: RobotData::CalcContactConstraint, CalcGravCompensation, CalcTaskControlTorque"]}
{"id": "C99", "title": "Standing still, the reported contact forces carry the robot's weight and the reported ZMP lies under the centre of mass", "statement": "For a robot on its feet, the contact forces that getContactForce reports for any command torque add up to the mass times gravity less the acceleration of the reported centre of mass, and their moment about it is the rate of change of the angular momentum. So whenever the command holds the robot still (in particular with the torque of gravity compensation) the ground carries exactly the weight, without moment about the centre of mass, however the torque distributes it over the feet; every distribution with that resultant can be commanded; and getZMP returns the point vertically below the centre of mass.", "quantifier": "every robot of any number of links and joints with positive masses and inertias, every posture, every number and placement of feet, every command torque", "why_tests_cant": "A test compares forces in a few postures with a tolerance; the balance involves the mass matrix, the gravity vector, the contact Jacobians and the ZMP sum together and must hold for every robot, posture and torque.", "anchors": ["src/dwbc.cpp: RobotData::UpdateKinematics (279-375)", "src/dwbc.cpp: RobotData::getContactForce (890)", "src/dwbc.cpp: RobotData::getZMP (898-939)", "src/dwbc.cpp: RobotData::CalcGravCompensation (875-888)"]}
{"id": "C100", "title": "A robot can stand exactly when its centre of mass is above its support polygon, and the controller reports it", "statement": "For a robot at rest on flat feet at one height on level ground, some joint torque holds it still without tipping, sliding or lifting any foot exactly when the reported centre of mass lies above the support polygon (the convex hull of the registered soles). Whatever torque makes the contact conditions hold, the robot's motion obeys the cart-table equation with a point of the support polygon. So contact redistribution succeeds, when torques are unlimited and the solver is exact, exactly when the centre of mass is above the polygon; otherwise it returns 0 with zero contact torque; QP task control then never fails; and after a successful QP task control the ZMP that getZMP reports lies in the support polygon.", "quantifier": "every robot of any number of links and joints with positive masses and inertias, every posture, every number and placement (including yaw) of feet on level ground, every sole size, every list of tasks, every sound solver", "why_tests_cant": "A test tries a few stances; that the constraint rows, the force map, the gravity vector and the solver's verdict together give exactly the geometric standing condition must hold for every robot, stance and task.", "anchors": ["src/dwbc.cpp: RobotData::UpdateKinematics (279-375)", "src/dwbc.cpp: RobotData::CalcTaskControlTorque (818)", "src/dwbc.cpp: RobotData::CalcSingleTaskTorqueWithQP (941)", "src/dwbc.cpp: RobotData::CalcContactRedistribute (1372-1618)", "src/dwbc.cpp: RobotData::getZMP (898-939)", "src/contact_constraint.cpp: ContactConstraint::GetZMPConstMatrix4x6, GetForceConstMatrix6x6, GetContactConstMatrix"]}
{"id": "C101", "title": "A command is followed unchanged exactly when the ground can supply its force and moment", "statement": "For a robot at rest on its feet, an acceleration that keeps the feet fixed can be produced by some joint torque without tipping, slipping or lifting a foot exactly when the feet can together press on the ground with the weight minus the rate of linear momentum and minus the rate of angular momentum about the centre of mass. On level ground this needs the cart-table point of the acceleration to lie in the support polygon; with enough grip, and when no turning moment about that point is asked for, it is also sufficient. With two or more feet, no torque limits and an exact solver, QP task control succeeds and changes no command exactly when for each task the acceleration commanded by it and the tasks above it can be supplied by the ground in this sense. Otherwise each task is changed as little as the ground requires: with the tasks above it as changed, no command whose motion the ground could supply is nearer to the task's own.", "quantifier": "every robot of any number of links and joints with positive masses and inertias, every posture, every number and placement of feet (two or more for the QP), every sole size and friction, every acceleration, every list of tasks, every exact and complete solver", "why_tests_cant": "A test tries a few commands; that task control gives up part of a command exactly when physics makes it impossible, never earlier and never later, must hold for every robot, stance and command.", "anchors": ["src/dwbc.cpp: RobotData::UpdateKinematics (279-375)", "src/dwbc.cpp: RobotData::CalcTaskControlTorque (818)", "src/dwbc.cpp: RobotData::CalcSingleTaskTorqueWithQP (941)", "src/contact_constraint.cpp: ContactConstraint::GetZMPConstMatrix, GetForceConstMatrix"]}
{"id": "C102", "title": "A foot can be unloaded and lifted exactly when the centre of mass is above the soles that stay", "statement": "A robot stands still on some of its registered contacts, flat on level ground. Some torque holds it still with no load on the feet to be lifted, and without tipping or slipping any foot, exactly when the reported centre of mass lies above the convex hull of the soles that stay. After SetContact has switched the lifted feet off and two or more stay, redistribution of a torque that holds the robot still then succeeds, and only then, and QP task control never fails (torques unlimited). When a single foot stays, its gravity compensation can be applied beforehand on all feet, with the others unloaded and none tipping or slipping, exactly when the centre of mass is above its sole. Setting further feet down only enlarges the polygon.", "quantifier": "every robot of any number of links and joints with positive masses and inertias, every posture, every number and placement (including yaw) of registered feet on level ground, every two choices of feet one inside the other, every sole size, every list of tasks, every exact and complete solver", "why_tests_cant": "A walking test lifts the feet of one gait in a few postures; that the switch is possible exactly under the geometric condition must hold for every robot, posture and choice of feet.", "anchors": ["include/dwbc.h: RobotData::SetContact (432-474)", "src/dwbc.cpp: RobotData::UpdateKinematics (279-375)", "src/dwbc.cpp: RobotData::CalcContactConstraint (480-513)", "src/dwbc.cpp: RobotData::CalcGravCompensation (875-888)", "src/dwbc.cpp: RobotData::CalcTaskControlTorque (818)", "src/dwbc.cpp: RobotData::CalcContactRedistribute (1372-1618)"]}
{"id": "C103", "title": "On any terrain a robot stands exactly when its centre of mass is in the support region of its feet, a vertical convex prism", "statement": "With feet at any heights and with soles turned in any direction, some joint torque holds the robot still without a foot tipping or slipping exactly when the reported centre of mass is in the support region of the feet: the points at which the feet can together carry a weight. This region does not depend on the mass, is convex, and only the position seen from above matters. It contains everything above and below the convex hull of the soles if each foot alone could carry the weight without slipping; on soles in one plane, level or inclined, it contains nothing else; on parallel soles too steep for their friction it is empty. With two or more feet and unlimited torques, contact redistribution of a torque that holds the robot still succeeds exactly when the centre of mass is in this region and otherwise returns 0 with no contact torque, and QP task control never fails inside it.", "quantifier": "every robot of any number of links and joints with positive masses and inertias, every posture, every number, height, direction, sole size and friction of the feet, every list of tasks, every exact and complete solver", "why_tests_cant": "Tests stand a robot on one floor; uneven ground has infinitely many placements of the feet, and the success of the QPs has to agree with statics for all of them.", "anchors": ["src/contact_constraint.cpp: ContactConstraint::GetZMPConstMatrix4x6, GetForceConstMatrix6x6 (99-107)", "src/dwbc.cpp: RobotData::UpdateKinematics (279-375)", "src/dwbc.cpp: RobotData::CalcContactConstraint (480-513)", "src/dwbc.cpp: RobotData::CalcGravCompensation (875-888)", "src/dwbc.cpp: RobotData::CalcTaskControlTorque (818)", "src/dwbc.cpp: RobotData::CalcContactRedistribute (1372-1618)"]}
