# Formal model of ros/geometry2 in Lean 4 — design

## 1. What is modelled, and how

The theorems are about a hand-written Lean model of the C++ text in `/repo`. Nothing is run or
extracted; each definition carries a comment with the file and lines it models.

Layers (all under `lean/Verif/`):

| module | models |
|---|---|
| `Model/Time.lean` | the part of `ros::Time`/`ros::Duration` (external, roscpp_core) the code uses: nanosecond counts, `+` that throws out of range, `isZero`, `TIME_MAX` |
| `Model/Cache.lean` | `tf2/src/cache.cpp`, `tf2/src/static_cache.cpp` |
| `Model/BufferCore.lean` | `tf2/src/buffer_core.cpp` frame table, `setTransform`, `clear`, the two tree walks, both `lookupTransform`, both `canTransform`, chain listing, frame listings |
| `Model/Requests.lean` | transformable callbacks and requests |
| `Model/LinearMath.lean` | `tf2/include/tf2/LinearMath/*.h` (over a field; trigonometric parts over the reals) |
| `Model/Pose.lean` | the concrete transforms of a buffer (quaternion + translation over the reals): instance of the abstract operations |
| `Model/MessageFilter.lean` | `tf2_ros/include/tf2_ros/message_filter.h` as interleavable steps on top of the buffer with requests |
| `Model/BufferServer.lean` | `tf2_ros/src/buffer_server.cpp`, `buffer_client.cpp` as interleavable steps |
| `Model/Ros.lean` | C++ and Python static broadcaster, `transform_listener.cpp`, blocking waits of `buffer.cpp` |
| `Model/Locks.lean` | which mutexes every operation holds while it takes which others |
| `Model/FrameReport.lean` | `allFramesAsYAML`, `_allFramesAsDot` of `buffer_core.cpp`: values printed per frame |
| `Model/Threads.lean` | the functions of `BufferCore` as programs of single memory accesses, run by any number of threads under any schedule |
| `Model/GeoMsgs.lean` | `tf2_geometry_msgs.h` `doTransform` for every message type as writes through references, `transformCovariance`; `BufferInterface::transform` |
| `Model/PointCloud.lean` | `tf2_sensor_msgs.h` `doTransform` |
| `Model/Convert.lean` | `toMsg`/`fromMsg`/`doTransform` of tf2_geometry_msgs (`tf2::` types), tf2_eigen, tf2_kdl, tf2_bullet, tf2_geometry_msgs.py; `tf2::convert` |
| `Model/AxisAngle.lean` | `Quaternion.h` `angle`, `nearest`, `farthest`, `shortestArcQuat`, `shortestArcQuatNormalize2`; `Vector3.h` `angle`, `normalize`, `tf2PlaneSpace1` |
| `Model/PyTime.lean`, `PyBuffer.lean`, `PyListener.lean`, `PyTransform.lean` | tf2_py, tf2_ros Python: times as doubles, blocking waits, listener, `transform` and the conversion registry |
| `Model/StaticProgram.lean`, `ViewFrames.lean`, `Echo.lean` | `static_transform_broadcaster_program.cpp`, tf2_tools `view_frames.py`, `echo.py` |
| `Model/PyCloud.lean` | Python's `do_transform_cloud` |
| `Model/Diagonalize.lean` | `Matrix3x3::diagonalize` |
| `Model/Scalar.lean` | `Scalar.h`: tf2NormalizeAngle, tf2Fmod (doubles), tf2Atan2Fast (reals) |
| `Model/MinMax.lean` | `MinMax.h`, minAxis/maxAxis and their relatives of `Vector3.h`, tf2Select and tf2SwapEndian |
| `Model/InPlace.lean` | the in-place operators of Vector3, Quaternion, Matrix3x3, Transform on memory, OpenGL arrays, byte swapping of vectors |
| `Model/ErrorText.lean` | texts of exceptions and of `error_msg` strings of `cache.cpp` and `buffer_core.cpp`, tf2_ros `errstr`; the walks of `Model/BufferCore.lean` again, with the text |
| `Model/PySet.lean` | `set_transform` of tf2_py on arbitrary Python objects, texts of `can_transform_core` |
| `Model/Rounded.lean` | `operator*`, `quatRotate`, vector sum and the normalization check with a rounding after every operation |
| `Model/RoundedInterp.lean` | `slerp`, `angleShortestPath`, `setInterpolate3`, `TimeCache::interpolate` with a rounding after every operation and a C library with errors |
| `Model/Listeners.lean` | transforms-changed listeners (buffer_core.cpp:1355-1366, 1490); boost::signals2 trusted |
| `Model/Floats.lean` | doubles with NaN and infinities: the arithmetic of a lookup, `TimeCache::interpolate` and the checks of `setTransform` with IEEE 754 rules |
| `Model/ListenerThread.lean` | `TransformListener` with its own thread: `initWithThread`, `dedicatedListenerThread`, the destructor, the subscription queues (roscpp, external) |
| `Model/RoundedProduct.lean` | `Matrix3x3::setRotation`, matrix product, `getRotation`, `Transform::operator()`, `operator*` and the five-argument lookup, with a rounding after every operation |
| `Model/Accesses.lean` | the members each function of `BufferCore`, `MessageFilter`, `BufferServer`, `TransformListener`, `StaticTransformBroadcaster` reads and writes, under which mutexes |
| `Model/RequestThreads.lean` | `setTransform`, `testTransformableRequests`, `addTransformableRequest`, `cancelTransformableRequest`, `addTransformableCallback`, `removeTransformableCallback`, `clear` executed by several threads, cut at lock operations and unlocked reads |
| `Model/BufferProgram.lean` | `main` of buffer_server_main.cpp: the listener with its own thread (Model/ListenerThread) and the buffer server (Model/BufferServer) on one buffer and one clock, the server's callbacks one at a time in `ros::spin` (external), an exception that leaves a callback ends the process; parameters and shutdown left out |
| `Model/Cells.lean` | the four numbers of `Vector3` under programs of assignments, `operator==` of vectors, matrices and transforms, `serialize*`/`deSerialize*` |

For every model there is a specification (`Spec/`) in terms of the history of calls, relations on
paths, Mathlib's matrices etc., lemmas (`Proofs/`), and the property theorems (`Props/`).

Transforms in the buffer model are an abstract type `X` with the operations the C++ uses
(identity, composition as in `TransformAccum::accum`, inverse as in `TransformAccum::finalize`,
interpolation as in `TimeCache::interpolate`, the NaN and norm checks). Theorems that do not
assume algebraic laws therefore hold for *any* arithmetic, IEEE doubles included. Theorems about
geometry instantiate `X` with real rotations+translations (`Pose ℝ`), i.e. exact arithmetic.

Undefined behaviour is an explicit outcome (`ub`) of the model: dereferencing an end iterator,
`lower_bound` on an unpartitioned range, out of range vector index, dangling references.
Exceptions (`tf2::*Exception`, `std::runtime_error` from time arithmetic) are explicit outcomes too,
with the state left behind by the throw.

The `while` loops of the tree walks are structural recursion on the code's own depth counter
(`MAX_GRAPH_DEPTH - depth`), not on an artificial fuel.

## 2. Trusted base

* Lean 4.33.0's kernel, and the axioms `propext`, `Classical.choice`, `Quot.sound` only
  (checked with `#print axioms` for every theorem in MANIFEST.json).
* The faithfulness of the model to the text of /repo.
* Assumed behaviour of externals: `std::deque/vector/list/map`, `boost::unordered_map` as finite
  maps/sequences, `std::lower_bound` = partition point on a partitioned range,
  `ros::Time + ros::Duration` throws `std::runtime_error` when the result is outside
  `[0, 2^32 s)`, mutexes are mutual exclusion, `actionlib` delivers results.
* Further external behaviour taken as given: a latched topic hands a late subscriber the last message
  published; the callbacks of one listener run one at a time; `boost::signals2`, callback queues
  and `actionlib` do what their documentation says; memory is sequentially consistent (`Threads`; C++ promises this only where C93 excludes data races);
  `sensor_msgs::PointCloud2Iterator` visits the field's word of each point (fields aligned to words);
  Eigen's `toRotationMatrix` and quaternion `inverse` as written in the model's comments.
* `genpy.Time.to_sec`, `ros::Time::fromSec`, `rospy.Time`, `rospy.sleep` as quoted in `Model/PyTime.lean` and `Model/PyBuffer.lean`; doubles there
  round to a nearest 53-bit number (`IsFl`), with no bound on exponents.
* `copy.deepcopy`, Python attribute lookup and dictionaries as usual; objects are values (no aliasing); PyKDL satisfies `RotLib.Sound`.
* C84, C85: rounding to a nearest IEEE double after each operation, no NaN, infinities or fused operations; the C library's `sin`,
  `acos`, `sqrt` satisfy `Libm.Accurate`; `ros::Duration::toSec` is `sec + 1e-9 * nsec`.
* C89: IEEE 754 with NaN, infinities and overflow for the lookups with one and with two times; signed zeros, fused operations,
  x87 excess precision are left out.
* C90: roscpp's subscription queues and `CallbackQueue::callAvailable` as described in `Model/ListenerThread.lean`; the plain
  `bool` that stops the thread is read and written atomically.
* Not modelled: IEEE rounding elsewhere (real arithmetic instead, except in law-free theorems),
  text of error messages outside `Model/ErrorText.lean`, logging, memory allocation, the libraries Eigen, KDL, Bullet themselves (assumption `RotLib.Sound`), argument parsing and reference counts of tf2_py,
  the SIMD members of LinearMath, ROS transport.
* The lookups of `Model/BufferCore.lean` carry no text and leave out the `std::runtime_error` that preparing a text can
  throw: they describe requests with no stamp on the way 2^31 s or more from the time asked for (`C81_lookup` is exact).

## 3. Plan per property

See `properties.jsonl` for the statements.

| id | model | proof |
|---|---|---|
| C01 | cache op sequences | invariant: storage = insertion-sorted filter of attempts; induction over ops |
| C02 | same | corollary of C01 (permutation invariance of the spec set + unique sorted list) |
| C03 | insertData | case analysis under sortedness |
| C04 | findClosest with `ub` | sortedness invariant ⇒ partition point strictly inside |
| C05 | getData, real poses | C04 + slerp at ratio 0 |
| C06 | slerp over ℝ | trigonometric identities |
| C07 | getData/getParent | case analysis |
| C08, C09 | buffer histories | invariant on cache kind |
| C10 | setTransform | case analysis; state equality |
| C11 | setTransform refused | per-frame query equality + walk congruence |
| C12 | frame table | invariant over histories |
| C13, C14 | both walks | simulation between accumulators |
| C15 | walk | loop characterisation by inductive chains; group laws |
| C16, C17 | walk | "same top" characterisation: connectivity is equality of tops |
| C18 | walk | structural recursion is the termination proof; cyclic or over-long chain ⇒ error; a loop-free rope of 1001 transforms is refused |
| C19 | walk | characterisation of the three failure exits |
| C20 | getLatestCommonTime | loop characterisation |
| C21, C22, C23 | lookup/setTransform | case analysis |
| C24, C25, C26 | buffer | per-frame query lemmas + walk congruence |
| C27, C28, C29, C30, C31 | LinearMath | real algebra/trigonometry; C31 is expected false at gimbal lock: prove the negation and the partial |
| C32, C33, C34 | requests | invariant over histories; C34 is expected false (dangling references): prove a witness |
| C35 | frame chain | expected false when the pruning index is 0: witness + partial |
| C36 | listings | invariant over histories |
| C37–C39 | message filter | invariant over histories |
| C40, C41 | buffer server + client | invariant over event sequences; finite case analysis on error codes |
| C42, C43, C44 | broadcasters, listener, waits | induction over calls / clock traces; the Python static broadcaster is expected to violate C42 |
| C45, C46 | locks | generic ordered-locking theorem over all schedules; sequential-consistency of critical sections |
| C47, C48 | geometry messages | real algebra |
| C49 | overflow | invariant preservation on the throwing branch |
| C50 | non-unit | witness (negation) + unit case is C16 |
| C51 | buffer histories | invariant over histories, per frame |
| C52 | `doTransform` on references | lens laws for equal or disjoint references |
| C53 | `BufferInterface::transform` | C16/C17/C27 plus C47 |
| C54 | point cloud loop | loop invariant over the words of the output |
| C55 | BufferCore lookups over any `Rigid` | induction over the chain of the answer; instances for unit quaternions and planar motions |
| C56 | two histories from the empty buffer | an injective renumbering of frames that all queries commute with, built from C51's per-frame content |
| C57 | `setRotation`, `getAngle`, `getAxis`, `angle` over ℝ | against Rodrigues' formula (`turn` in `Spec/AxisAngle.lean`) and `axisTurn`; half-angle identities |
| C58 | `shortestArcQuat`, `tf2PlaneSpace1`, `nearest`, `farthest` over ℝ | Lagrange's identity; minimality from `v0·(q v0 q*) ≥ 2w²−1` |
| C59 | the history of calls alone (`Spec/Denote.lean`: `Effective`, `Says`, `Leads`) | frame window (C51) and path composition (C15) rewritten in terms of messages |
| C60 | `canTransform`/`lookupTransform` under `OneTree` | from C59 by induction along the tree; continuation by `recentFor` on appended histories |
| C61 | program with one filter under `OrderlyRun` (Spec/FilterWait.lean) | invariant: answers counted + handles pending or scheduled = answers expected; pending requests unanswerable after a sweep |
| C62 | `Model/FrameReport.lean`: the values `allFramesAsYAML` / `_allFramesAsDot` print | invariants over histories: stored stamps span at most the cache duration; recorded authority = authority of the last accepted call |
| C63 | `Model/Convert.lean`, field by field assignments into an old object | computation; quaternion/matrix correspondence of C29 for any library satisfying `RotLib.Sound` |
| C64 | same, `doTransform` on references | reduction of every library's transform to `fromMsgT`, then C47; velocity field `Twist.at` and `power` as specification of twists |
| C65 | `SBroadcaster`, the buffer; `Spec/Late.lean`: what an early and a late subscriber receive | both histories `Say` the same about every frame (C42 for the static ones), then C59; for every query, they have `SameData` and C86 applies (`Props/LateSame.lean`); C59/C65 instantiated for real poses in `Props/PoseDenote.lean` |
| C66 | the buffer as for C13/C20 | invariant `StampsIn`: every stored stamp was offered; the result of `latestCommonTime` is a minimum over stored stamps or zero |
| C67 | `Model/PyTime.lean`: `to_sec`, `fromSec`, `Py_BuildValue` over ℚ with a rounding `fl`; `Model/PyBuffer.lean`: tf2_py.BufferCore; `Spec/PyTime.lean`: what correct rounding is | error analysis of the two roundings and of the nanoseconds; fixed points by distance to the nearest double; histories by induction, then C66 and C26 |
| C68 | `Model/PyBuffer.lean`: WRAP, the core calls, the polling loop of buffer.py step by step (`pystep`), the Python client; `Spec/PyWait.lean` | reduction of each call to the C++ call on the request that `Reaches` the buffer, C13/C14/C66; classification `PyAt` of all positions of a wait by induction on steps |
| C69 | `Model/PyListener.lean`: any number of callbacks as a transition system; `Spec/PyListener.lean` | invariant per callback (`CbInv`) over all schedules; refinement of the C++ `callsDue` for non-overlapping callbacks |
| C70 | `Model/PyTransform.lean`: objects by class, the registries, `transform` / `transform_full` on the wait of C68 | every registered function acts through the KDL frame of the transform (`PyActs`); then the laws of C53/C54 through the time passage of C67 |
| C71 | same: registrations as a history, `convert` | the dictionaries characterised by `Stands` / `Vacant` of the history; case analysis |
| C72 | `Model/StaticProgram.lean`: `main` of static_transform_publisher as a function of the argument vector and the parameter server | case analysis; end to end through `Says` (C56) and `walkAt_parent` |
| C73 | `Model/ViewFrames.lean`: `generate_dot` on the entries of `allFramesAsYAML` (C62), YAML keys as a parameter | the dictionary and the loop characterised for plain names; a loop by the pigeonhole principle |
| C74 | `Model/Echo.lean`: the callback of the timer as a step on a small state, the conversion to angles over the reals | induction on the calls with C68_agree; the angles from the equations of a rotation matrix, with an error bound next to the poles |
| C75 | `Model/PyCloud.lean`: do_transform_cloud with read_points, create_cloud and the struct format they build | the layout is the increasing list of the covered words (induction on the sorted fields); packing and unpacking are inverse on it |
| C76 | `Model/Diagonalize.lean`: `diagonalize` as a loop of Jacobi turns | each turn is conjugation by a matrix that is a rotation up to eps; invariants of the loop by induction on the steps |
| C77 | the buffer with real poses (`Model/Pose.lean`) | `Leads` of C59 graded by the number of hops; slerp keeps the squared length between those of its arguments |
| C78 | `Model/Scalar.lean`: fmod exact as the C standard asks, other operations rounded | the two subtractions are exact (Sterbenz-like argument on multiples of the last place); trigonometric bounds on each octant for the fast arc tangent |
| C79 | `Model/MinMax.lean` | case analysis over a linear order; induction over the list of points; bitwise for the words |
| C80 | `Model/InPlace.lean`: memory of cells, functions as sequences of reads and writes | symbolic execution of the writes with the address inequalities from `Apart` |
| C81 | `Model/ErrorText.lean`: the same walks with the error string threaded through, snprintf into fixed arrays, c_str truncation | outcome relations for each loop (`Out1`, `Out2`, `WalkOut`, `LctOut`) against a spec of true sentences (`Spec/ErrorText.lean`) |
| C82 | `Model/PySet.lean`: objects as trees of attributes, pointers that may be NULL or freed, pending Python exceptions | symbolic execution of the binding against the relation `Parts` (`Spec/PySet.lean`) |
| C83 | none of its own: `Model/BufferCore.lean`, `Model/Cache.lean`; `Spec/Newest.lean` is about messages only | correspondence of stored windows with messages (`newest_iff`), then path lemmas: availability at the first stamp makes every dynamic transform on the way newer than it, and the meeting point stays the same |
| C84 | `Model/Rounded.lean`: every + - * of the quaternion product, quatRotate and the vector sum followed by a rounding; the same walk | error analysis of each operation, a step lemma with a growth factor, induction over both loops relating the two accumulators; `exists_double` for the unit roundoff |
| C85 | `Model/RoundedInterp.lean`: slerp, angleShortestPath, setInterpolate3, the ratio of durations, with a rounding after every operation | `Proofs/Weight.lean`: sin(t x)/sin x is monotone and Lipschitz in cos x, so the error of acos near 1 is harmless; error analysis in `Proofs/RoundedInterp.lean`; `agree_of` of C84 |
| C86 | BufferCore, as in C59 | content of each frame as window (C51, C01) gives an isomorphism of buffers up to renumbering (Proofs/Rename.lean); `effective_snoc` says what one more message changes |
| C87 | Model/Pose, Model/LinearMath, Model/Cache, Model/BufferCore; no new model. Spec/Speed states the limit over the messages. | One frame: slerp turns about one axis at constant rate and interpolation is affine, so a segment between two messages is Lipschitz; induction on t2 - t1 splitting at messages. Ways: induction over the steps with isometry of unit poses; the lowest frame common to both answers is found with the tree. |
| C88 | Model/Listeners (on top of Model/Requests): connections, setTransform calls before line 1490, calls of emissions under way. | An account of calls made, calls to come and emissions to come is kept by every step; induction over the history. |
| C89 | Model/Floats: doubles as finite numbers, infinities and NaN; every operation of Model/Rounded and Model/RoundedInterp again, with IEEE rules, overflow, comparisons with NaN and the two checks of setTransform. | Below the overflow threshold the machine computes what the rounded arithmetic of C84/C85 computes; bounds on the length of quaternions (1.0062 per transform) and translations (1.0123 per transform) along the at most 1000 transforms of a path; slerp between almost-unit quaternions, half turns included, stays almost unit; lengths stay in [1e-6, 1e6] along a path, so that the scale-free matrix of a quaternion, the product of two and the way back (C92) neither overflow nor divide by zero. |
| C90 | Model/ListenerThread: the subscription queues, the callback queue, the thread (test, grab, calling, ended, crashed), the owner (constructor, use, join, gone) around the callback of Model/Ros. | Invariant: entries of the callback queue and of the running batch are as many as waiting messages; per topic arrived = past ++ waiting with past a merge of handled and dropped; the listener inside is a run of the listener of C43. Ranking functions for the two bounds. |
| C91 | No further code: Model/ListenerThread around Model/Ros and Model/BufferCore; Spec/Agreement names what arrived, caught up and calm. | The calls of the buffer are those of the handled messages (C90), no clear happens without a backward clock, and buffers told the same consistent set of transforms are indistinguishable (C86). |
| C92 | Model/RoundedProduct.lean: Matrix3x3::setRotation, the matrix product, Transform::operator() and operator*, Matrix3x3::getRotation with a rounding after every operation and a C library's sqrt | Proofs/RoundedProduct.lean bounds the error of every operation around the exact rotation matrix and shows that whichever branch getRotation takes, its pivot is at least 0.49; Proofs/RoundedFive.lean compares with the exact product of the exact legs; the legs are those of C84/C85. |
| C93 | Model/Accesses.lean: all functions of Model/Locks.lean with their accesses to members, listeners and static broadcasters; Trace with parts left out (exceptions); interleavings with their actions | Every access to a protected member is made under its mutex (structural), mutual exclusion is an invariant, so a lock held at both accesses was handed over. Witness schedules for the other members are computed. Without the accesses the functions are those of C45. |
| C94 | Model/RequestThreads.lean: the functions of Model/Requests.lean cut at every lock operation and every unlocked read; an arbitrary number of threads; schedules are lists of steps | Invariant: every pending request must wait, or was missed, or some thread still owes a test; the part of the vector already tested likewise. Counting invariants for answers, calls and handles. A measure for progress; simulation of the loop of the sequential model for a call that runs alone. |
| C95 | Model/Floats.lean with Model/Rounded.lean: both machines on the same history | Both machines run at once, on pairs of a real pose and its doubles (Proofs/FloatsSame: a Rigid instance for pairs whose projections are homomorphisms, Proofs/MapBuf); every stored transform, interpolation and product stays in range, so the two components stay equal; the bounds then carry over. |
| C96 | Model/ListenerThread.lean, Model/Ros.lean (wait), Model/BufferCore.lean: the thread, the buffer and the caller together | C90 (order, liveness, calls) gives what the buffer was told at every moment as a list; C60 says when a query is answered from such a list; the frames' cover is monotone under the stated publishing discipline; C44 turns it into the outcome of the wait. |
| C97 | Model/BufferProgram.lean: the process as the listener of Model/ListenerThread.lean and the server of Model/BufferServer.lean, with one buffer, one clock and exclusive callbacks | Simulation: every history of the program is one of the listener alone and one of the server alone; the server's theorems (C40, C41) and those about arrival (C96) are combined; a measure for the callbacks. |
| C98 | program with one filter under `OrderlyRun` (C61) and `ChanceRun` (Spec/FilterPass.lean) | Invariant: each transform asked for so far is there or one of the message's own requests for it is pending; with the invariant of C61 no request is pending when the last answer is counted, so the re-check succeeds. C61 (no vain wait) and C37 (conservation) then leave only the decision to pass. `C98_in_time` (Spec/FilterInTime.lean) derives the chance from what is published: `C60` availability on prefixes of the history, on which an in-order stream keeps covering a time. |
| C99 | program with one filter under `OrderlyRun` (C61) and `AskedOwn` (Spec/FilterLeft.lean) | Invariant: the handle of each pending request of the filter is in the list of a message held or being added, or belongs to a message given up; each way out of the queue cancels or has answered all handles of the message (C61's invariant: when the last answer is counted no request is pending). The bound is by distinctness of handles and C61's count. The leak is by induction on the number of messages. |
| C100 | Model/Cells.lean: programs over variables of four cells (`none`: never written), serialised data; reading a cell never written is undefined behaviour | Invariant over programs: each fourth cell is unwritten or zero, and zero for variables with a value as a whole; serialised data have a zero there. Round trips by framing (no statement in between writes the data). |
| C101 | Model/Requests.lean (testIter, testLoop); the expected order is `takenOut` in Spec/SweepOrder.lean | Induction on the loop: the unscanned part of the request vector is the specification's list; lemmas on the scan by induction on its length; the finding from C33 (all answered) and the order. |

## 4. Findings (places where the code does not do what its interface promises)

Proved, each with a concrete execution or a quantified statement (theorem names in brackets):

* [C20_latest_can_fail_finding] A lookup at time 0 between connected frames can fail with an
  extrapolation error, because the common time is computed on the *newest* parents.
* [C30_gimbal_finding, C31_gimbal_finding] `Matrix3x3::getEulerYPR` and `tf2::getEulerYPR` /
  `getYaw` return angles of another rotation at gimbal lock.
* [C32_cancel_in_flight_finding, C32_cancel_truncates_finding] A request cancelled between its answer and its
  callback is still called back; `cancelTransformableRequest` compares only the low 32 bits of the handle.
* [C33_latest_request_finding, C33_throw_loses_answers_finding] A pending time-0 request is answered with failure
  at the moment the transform becomes available; a pending request whose time overflows makes
  `setTransform` throw and loses the other answers of the same round.
* [C34_dangling_arguments_finding] The references to frame names, time and result passed to every
  scheduled transformable callback dangle.
* [C35_finding] `_chainAsVector` can list a frame above the common ancestor, which is not on the path.
* [C36_unknown_parent_finding] After a message whose child is called `NO_PARENT`, `_getParent` reports a parent for
  every name never mentioned.
* [C37_clear_in_flight_finding, C38_shrink_finding, C39_wrong_drop_finding] MessageFilter: `clear` during a
  callback is undefined behaviour; shrinking the queue size does not shrink the queue; a transformable
  message is dropped if the dangling result reference happens to read as failure.
* [C40_cancel_lost_finding, C40_overflow_finding] BufferServer: a cancel arriving before the goal is in
  the list is lost; a huge timeout makes the goal callback throw and the goal never ends.
* [C42_python_finding, C42_slash_finding] The Python static broadcaster forgets earlier transforms; `a`
  and `/a` are kept as two entries.
* [C43_escape_finding] `std::runtime_error` is not caught by the listener and loses the rest of the message.
* [C44_overflow_finding, C44_no_thread_finding] A huge timeout throws; without a dedicated thread
  `canTransform` says false although the transform is there, and `lookupTransform` still succeeds.
* [C45_reentrant_finding] A user callback of a filter without callback queue runs under the filter's mutex.
* [C46_five_arg_finding, C46_race_finding] Five-argument `lookupTransform` is not atomic and reads the frame
  table without the mutex.
* [C47_child_frame_finding, C47_python_wrench_finding, C47_eigen_quaternion_finding] `doTransform(TransformStamped)`
  never writes `child_frame_id`; the Python wrench lacks the moment of the displaced force; tf2_eigen conjugates
  quaternions by the inverse.
* [C49_overflow] The overflowing message is stored although `setTransform` throws.
* [C50_finding] Quaternions within the accepted tolerance of unit length make lookups in opposite
  directions not inverse.
* [C54_nonunit_finding] Clouds and points are transformed differently by a non-unit quaternion.
* [C57_small_angle_finding] `getAxis` returns a fixed axis for small rotations, so axis and angle do not rebuild them.
* [C60_gap_finding] A buffer remembers less than its cache duration, by up to the gap between two messages.
* [C61_add_race_finding] `MessageFilter::add` holds no lock between its request and queueing the message; an answer in between finds no message and the message is stranded.
* [C61_targets_finding] `setTargetFrames` with more frames while messages wait raises the number of answers they must collect without asking for them: they are stranded.
* [C61_clear_finding] `clear` during an `add` cancels its request; the message is queued afterwards and stranded.
* [C62_overflow_finding] A `setTransform` that throws because stamp + cache duration overflows has already stored its transform, and no broadcaster is recorded for it.
* [C63_covariance_finding] Converting a stamped `tf2::Transform` into a `PoseWithCovarianceStamped` keeps the covariance the output had.
* [C64_nonunit_finding] For non-unit quaternions, which the buffer accepts, tf2, Eigen and KDL (hence the Python functions) compute three different points.
* [C65_malformed_finding] A malformed static transform, which every buffer refuses, still replaces the good one in the latched message, so late subscribers never get the frame.
* [C65_forgotten_parent_finding] A frame named only by a static transform that was superseded stays known to early subscribers and is unknown to late ones: the same lookup throws ConnectivityException in one node and LookupException in the other.
* [C67_collision_finding, C67_lost_update_finding] Python stamps pass through a double of seconds: stamps up to 119 ns apart become one from 2004 on, and the later of two transforms is dropped without an error.
* [C67_error, C67_year_2038_finding] The last 238 stamps of the time type end a Python process (uncaught C++ exception), and from January 2038 on so does every successful lookup (the seconds go out as a signed 32-bit number).
* [C68_refused_finding, C68_base_class_finding] Python's `set_transform` hides that a transform was refused; `get_latest_common_time` raises `TransformException` where `lookup_transform` raises `ConnectivityException`.
* [C69_race_finding] The Python listener clears the buffer under a lock that does not cover storing: a callback past its check can store data from before a clock reset into the cleared buffer, and later data are then refused as too old.
* [C70_takeover_finding] The Python registries are global: the module imported last takes a class over from every other module.
* [C71_wrong_class_finding] `convert` between `PointStamped`, `Vector3Stamped` and `PoseStamped` returns its argument, of the wrong class, and raises nothing.
* [C71_attribute_finding, C71_swallowed_finding] An impossible conversion to `PyKDL.Vector` fails with AttributeError, not TypeException; a TypeException of a registered conversion is swallowed.
* [C72_slash_finding, C72_norm_finding] static_transform_publisher publishes transforms every buffer refuses: frame names equal but for a leading slash, quaternions far from unit length.
* [C72_integer_finding] A parameter with a number without decimal point passes its validation and ends it with an uncaught exception.
* [C73_loop_finding, C73_cleared_finding] view_frames fails (UnboundLocalError, TypeError) on a buffer whose frames form a loop, and on one that was just cleared.
* [C73_name_finding] `allFramesAsYAML` does not quote the names of frames: a frame called `on` is drawn as `True`, apart from its children.
* [C73_trees_finding] With several trees the legend points to one of them only.
* [C74_connectivity_finding, C74_offset_finding] echo.py: a ConnectivityException (frames known but not yet joined) or a negative time ends the timer's thread; the program runs on and never shows anything again.
* [C74_cache_finding] `echo.py --cache_time` hands a float where a duration is needed and always fails.
* [C75_field_order_finding, C75_points] Python's do_transform_cloud takes the first three values of a point for its coordinates, whatever their names, and returns an organised cloud as a single row.
* [C76_approximation_finding, C76_negative_threshold_finding] `diagonalize` gives a `rot` that shrinks slightly, even in exact arithmetic; a negative threshold divides by zero on a diagonal matrix.
* [C17_time_zero_finding] lookups at time 0 do not compose: w<-a and a<-b, each at its own latest common time, are not w<-b at time 0.
* [C39_changed_targets_finding] setTargetFrames during MessageFilter::add: the successes counted for the old target frames are compared with the number of the new ones, and a message is passed that satisfies neither.
* [C77_refused_finding, C77_scale_finding] the norm check of setTransform lets quaternions through that `quatRotate` turns into a change of scale of up to 1% per transform; the answer of a lookup can fail the same check.
* [C78_half_turn_finding] tf2NormalizeAngle leaves both half a turn and minus half a turn alone, though they differ by one turn: comparing normalised angles is not comparing directions.
* [C79_large_finding, C79_exchanged_finding, C79_select] tf2Vector4::maxAxis4 returns -1 (no axis) when all components are below -1e30; GEN_clamp with exchanged bounds returns a value that is neither bound's side; tf2Select(0x80000000, ..) negates INT_MIN, undefined behaviour.
* [C80_*_finding] arguments passed by reference are re-read after being overwritten: `v *= v.x()` scales y and z by x^2, `v.setValue(v.y(), v.x(), v.z())` loses x, `t.mult(t, u)` uses the new rotation for the origin, `tf2PlaneSpace1(n, n, q)` and in-place `tf2SwapScalarEndian` give wrong results; `operator==` of Vector3 compares the fourth cell, which setInterpolate3 does not set; getOpenGLMatrix writes 16 (documented: 15) and getOpenGLSubMatrix 12 (documented: 9) scalars.
* [C81_*_finding] the difference between request and nearest stamp is computed for the text even if the walk succeeds in the end, so far-away data (>= 2^31 s) makes lookupTransform of a stored transform throw std::runtime_error; canTransform with illegal names returns false without text; after clear() the reason is missing and the caller's stale string takes its place; error_msg is appended to for unknown frames and overwritten otherwise; "fixed_frame: Xdoes not exist." lacks a space; extrapolation texts are cut at 999 characters; tf2_ros's errstr is non-empty on success.
* [C82_*_finding] `set_transform` checks neither `PyErr_Occurred` nor NULL: non-numbers are stored as -1 while Python raises SystemError; missing attributes crash the interpreter; `pythonBorrowAttrString` returns freed objects for computed attributes; `can_transform_core` is not wrapped, so the std::runtime_error of C81 ends the process.
* [C83_back_finding] The stamp of 'latest' lookups can go backwards when a frame is re-parented or after clear.
* C100: `Vector3::operator==` and serialisation read the unused fourth number, which stays indeterminate in a vector that is declared and then given its coordinates one by one (C100_coordinates_finding)
* C101: `testTransformableRequests` fills the place of each answered request with the last one of the vector, so of
  n+1 requests that become answerable together the callbacks run in the order 1, n+1, n, ..., 2, and a message filter
  passes waiting messages out of order.
* C99: `MessageFilter::add` returns on a transform that is too old (or throws on `stamp + tolerance`) without cancelling the requests it has already made for the other target frames; with a target frame that never appears they pile up in the buffer without bound (C99_leak_finding)
* C97: one client can end the buffer_server for everybody (C97_killed_finding)
* C96: a wait can return false before its deadline although its own check found the transform (C96_race_finding)
* addTransformableRequest checks canTransform before it takes the mutex of the requests: a transform stored in between is not noticed, and the request waits for the next setTransform.
* 17 members are accessed without a common mutex, among them frames_ and the caches (getLatestCommonTime in addTransformableRequest and testTransformableRequests) and transformable_requests_counter_ (duplicate handles).
* a backward clock jump, or one frame on both topics, leaves nodes with the same messages in disagreement
* one message with a stamp at the end of the range kills the process; 101 latched static messages lose one; the buffer keeps claiming a thread
* an infinite translation is accepted and comes back as NaN
* listeners miss a stored transform when a pending request overflows the time range; clear notifies nobody
* A frame that changes parent makes answers jump (C87_hop_finding).
* two different messages with the same child and stamp, or a frame sent both static and dynamic: the first to arrive wins, so answers depend on delivery order
* interpolation is discontinuous at half a turn and sticks to the older transform below 4e-9

Seen while reading, not stated as theorems: frame names are registered even when the data is refused;
`"//a"` registers `"/a"`, which no query accepts; the frame name `NO_PARENT` gets a cache that `clear`
skips; `lookupTransform(unknown, same, 0)` takes the stamp of frame 0's cache; stamps 0 and `TIME_MAX` are ignored in
the common time; `goalCB` uses `<=` where `checkTransforms` uses `<`; the Python client does not
cancel its goal on timeout; a jump back of more than 68 years throws from the listener's warning
before it clears; an invalid re-send shadows a valid static transform for late subscribers;
`addTransformableRequest` reads the frame table without the mutex; `~MessageFilter` registers a
callback bound to the destroyed object; `fromMsg(PoseWithCovarianceStamped, Stamped<Transform>)` calls
a template nobody defines.
