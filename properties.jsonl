{"id": "C01", "title": "Cache content is exactly the accepted window", "statement": "After any sequence of insertions into a time cache with non-negative storage duration D (since creation or the last clear), the cache holds exactly the attempted samples whose stamp + D is at least the newest attempted stamp, one per stamp (the first attempt with that stamp wins), newest first; its length, latest and oldest timestamp are those of that set.", "quantifier": "every finite sequence of insertions and clears, every storage duration, every stamp for which stamp + D is representable", "why_tests_cant": "The retained set depends on the whole history of insertions, prunings and clears; tests sample a few histories.", "anchors": ["tf2/src/cache.cpp: TimeCache::insertData, pruneList, clearList, getListLength, getLatestTimestamp, getOldestTimestamp"]}
{"id": "C02", "title": "Insertion order does not matter", "statement": "Inserting the same samples (distinct stamps) into an empty time cache in any order leaves the same cache content, hence every later query answers the same.", "quantifier": "every list of samples with pairwise distinct stamps and every permutation of it", "why_tests_cant": "n! orders; out-of-order arrival interleaved with pruning.", "anchors": ["tf2/src/cache.cpp: TimeCache::insertData, pruneList"]}
{"id": "C03", "title": "Insertion is rejected exactly for too-old or repeated stamps", "statement": "insertData on a reachable time cache fails exactly when the newest stored stamp exceeds the new stamp + D (TF_OLD_DATA) or a stored sample already has that stamp (TF_REPEATED_DATA); a rejected insertion leaves the cache unchanged.", "quantifier": "every reachable cache, every new sample", "why_tests_cant": "boundary at exactly latest-D, duplicates anywhere in the list.", "anchors": ["tf2/src/cache.cpp: TimeCache::insertData"]}
{"id": "C04", "title": "Queries never extrapolate and never dereference out of range", "statement": "On every reachable time cache: a query at time 0 uses the newest sample; a query at a time equal to a stored stamp uses that sample as its older sample; a query strictly between two adjacent stamps uses exactly those two; every other query fails. The binary search is always applied to a partitioned range and the iterators it yields are always dereferenceable (no undefined behaviour).", "quantifier": "every reachable cache and every query time", "why_tests_cant": "undefined behaviour at range ends is invisible to most tests; needs the sortedness invariant over all histories.", "anchors": ["tf2/src/cache.cpp: TimeCache::findClosest, getData, getParent"]}
{"id": "C05", "title": "Exact-stamp queries return the stored transform", "statement": "If a sample with stamp t (t != 0) is stored, the transform returned for time t has exactly the translation, rotation and parent of that sample, in particular interpolation with ratio 0 is the identity on the older sample.", "quantifier": "every reachable cache and stored stamp; all real-valued transforms", "why_tests_cant": "needs a statement about interpolation for all quaternions, including the antipodal and coincident cases.", "anchors": ["tf2/src/cache.cpp: TimeCache::getData, interpolate", "tf2/include/tf2/LinearMath/Quaternion.h: slerp", "tf2/include/tf2/LinearMath/Vector3.h: setInterpolate3"]}
{"id": "C06", "title": "Interpolation is geometrically correct", "statement": "Between two samples with the same parent, the translation is the affine combination with ratio (t-t1)/(t2-t1) in [0,1], the interpolated quaternion of two unit quaternions is a unit quaternion, at the ends it is the first quaternion and plus/minus the second, and the rotation from the first sample turns at constant rate along the shorter arc.", "quantifier": "all unit quaternions, all ratios in [0,1]", "why_tests_cant": "continuum of inputs with singular cases (equal, antipodal).", "anchors": ["tf2/include/tf2/LinearMath/Quaternion.h: slerp, angleShortestPath", "tf2/src/cache.cpp: TimeCache::interpolate"]}
{"id": "C07", "title": "A sample whose neighbour has another parent is not interpolated", "statement": "When the two samples around the query time have different parents, the returned transform is the older sample unchanged (its parent, its rotation and translation); interpolation never mixes transforms relative to different parents, and the parent reported without the transform equals the parent reported with it.", "quantifier": "every reachable cache and query time", "why_tests_cant": "re-parenting histories are combinatorial.", "anchors": ["tf2/src/cache.cpp: TimeCache::getData, getParent"]}
{"id": "C08", "title": "Static transforms hold at all times", "statement": "Once a frame's first accepted transform is static, queries of that frame succeed at every time with the most recently set transform and parent, regardless of stamps and regardless of clear().", "quantifier": "every history of setTransform and clear calls, every query time", "why_tests_cant": "quantifies over all times and histories.", "anchors": ["tf2/src/static_cache.cpp", "tf2/src/buffer_core.cpp: allocateFrame, setTransform, clear"]}
{"id": "C09", "title": "Static or dynamic is decided by the first accepted transform of a frame", "statement": "Whether a frame is static never changes after its cache is created: later setTransform calls with the other flag store into the existing cache.", "quantifier": "every history", "why_tests_cant": "history property.", "anchors": ["tf2/src/buffer_core.cpp: setTransform, allocateFrame", "tf2/include/tf2/buffer_core.h: setTransform doc"]}
{"id": "C10", "title": "Malformed transforms are rejected and change nothing", "statement": "setTransform returns false and leaves every observable of the buffer unchanged if the child id is empty, the parent id is empty, child equals parent (after removing one leading slash from each), any component is NaN, or |q|^2 differs from 1 by 0.01 or more; otherwise it reaches the cache.", "quantifier": "every buffer state and every transform message", "why_tests_cant": "all combinations of bad fields; unchanged means every future query.", "anchors": ["tf2/src/buffer_core.cpp: setTransform"]}
{"id": "C11", "title": "A transform refused by the cache does not change any lookup", "statement": "If setTransform returns false because of TF_OLD_DATA or TF_REPEATED_DATA, no lookup, canTransform or getParent answer changes for frames that were already known; the frame names are nevertheless registered.", "quantifier": "every reachable buffer and refused transform", "why_tests_cant": "for all subsequent queries.", "anchors": ["tf2/src/buffer_core.cpp: setTransform, lookupOrInsertFrameNumber"]}
{"id": "C12", "title": "Frame numbering is a growing bijection", "statement": "Frame names and compact ids are in bijection in every reachable state; id 0 is reserved for NO_PARENT; an id once given to a name is never changed or reused by setTransform, clear or any query; every parent id stored in a cache denotes a known name, so no reverse lookup by id can fail or read out of range.", "quantifier": "every history", "why_tests_cant": "invariant over all histories.", "anchors": ["tf2/src/buffer_core.cpp: lookupOrInsertFrameNumber, lookupFrameNumber, lookupFrameString, allFramesAsStringNoLock, _getFrameStrings"]}
{"id": "C13", "title": "canTransform predicts lookupTransform", "statement": "In every reachable state canTransform(target, source, time) returns true exactly when lookupTransform(target, source, time) returns without throwing, for all strings and times, including empty names, names with a leading slash, unknown names and equal names.", "quantifier": "every reachable buffer, every pair of strings, every time", "why_tests_cant": "two separate tree walks with different accumulators must agree everywhere.", "anchors": ["tf2/src/buffer_core.cpp: canTransform, canTransformNoLock, lookupTransform, walkToTopParent, CanTransformAccum, TransformAccum"]}
{"id": "C14", "title": "canTransform with a fixed frame predicts lookupTransform with a fixed frame", "statement": "In every reachable state the five-argument canTransform returns true exactly when the five-argument lookupTransform returns without throwing.", "quantifier": "every reachable buffer, all strings and times", "why_tests_cant": "as above.", "anchors": ["tf2/src/buffer_core.cpp: canTransform(5), lookupTransform(5)"]}
{"id": "C15", "title": "A lookup composes the edges of the path between the frames", "statement": "A successful lookupTransform(target, source, t), t != 0, returns inverse(target->c) * (source->c) where both chains follow, at time t, child-to-parent transforms stored in the buffer to a common ancestor c; for unit quaternions this equals the composition along the shortest path, whichever way the walk ended. For t = 0 the same holds with the time the answer is stamped with in place of t.", "quantifier": "every reachable buffer, every pair of frames, every time, unbounded tree depth up to the documented limit", "why_tests_cant": "all tree shapes and all four ways the walk can end.", "anchors": ["tf2/src/buffer_core.cpp: walkToTopParent, TransformAccum"]}
{"id": "C16", "title": "Lookups in opposite directions are inverse", "statement": "If lookups a<-b and b<-a at the same nonzero time both succeed over unit-quaternion data, their composition is the identity; and one succeeds iff the other does when no parent chain exceeds the depth limit. The same holds for any two answers stamped with the same time, whatever the times asked for, and so for the two directions at time 0, which are always stamped alike.", "quantifier": "every buffer, frames, times", "why_tests_cant": "all tree shapes.", "anchors": ["tf2/src/buffer_core.cpp: lookupTransform, walkToTopParent"]}
{"id": "C17", "title": "Lookups compose", "statement": "For unit-quaternion data and a nonzero time, if a<-b and b<-c succeed (and no chain exceeds the depth limit) then a<-c succeeds and equals the product; connectivity at a fixed time is an equivalence relation. Any three answers stamped with the same time compose, whatever the times asked for. (Finding: at time 0 lookups do not compose, since each is stamped with its own latest common time.)", "quantifier": "every buffer, every triple of frames, every nonzero time", "why_tests_cant": "all tree shapes.", "anchors": ["tf2/src/buffer_core.cpp: lookupTransform, walkToTopParent"]}
{"id": "C18", "title": "Lookups terminate and loops are reported", "statement": "Every lookup terminates after at most MAX_GRAPH_DEPTH+1 edges per walk on any stored graph, including cyclic ones; a source whose parent chain never ends and does not meet the target gives LookupException, and so does one whose chain has more than MAX_GRAPH_DEPTH edges before it meets the target, loop or not (likewise on the target side).", "quantifier": "every buffer including cyclic parent graphs", "why_tests_cant": "termination on all graphs.", "anchors": ["tf2/src/buffer_core.cpp: walkToTopParent, getLatestCommonTime, MAX_GRAPH_DEPTH"]}
{"id": "C19", "title": "Failure classes are right", "statement": "For known frames and nonzero time with no chain over the limit, a failing lookup reports connectivity error exactly when both chains end at frames that have no cache (two separate roots), and extrapolation error otherwise (some chain ends at a frame that has a cache but no data for that time).", "quantifier": "every buffer, frames, times", "why_tests_cant": "all tree shapes and cache states.", "anchors": ["tf2/src/buffer_core.cpp: walkToTopParent, lookupTransform"]}
{"id": "C20", "title": "Lookup at time zero uses the latest common time", "statement": "A lookup at time 0 between different known frames answers exactly as a lookup at the latest common time; that time is the minimum of the newest stamps of the dynamic frames on the path between the two frames (zero if all are static), and the returned stamp is that time.", "quantifier": "every reachable buffer and pair of frames", "why_tests_cant": "min over all path shapes, static/dynamic mixtures.", "anchors": ["tf2/src/buffer_core.cpp: getLatestCommonTime, walkToTopParent"]}
{"id": "C21", "title": "Same-frame lookups are the identity", "statement": "lookupTransform(f, f, t) always returns the identity stamped t (or the newest stamp of f for t = 0), for every string f, known or not.", "quantifier": "every string, time, state", "why_tests_cant": "all strings.", "anchors": ["tf2/src/buffer_core.cpp: lookupTransform"]}
{"id": "C22", "title": "Bad frame names give the documented exceptions", "statement": "For different target and source, lookupTransform throws InvalidArgumentException for an empty name or a name with a leading slash, LookupException for an unknown name, checked target first, and never anything but the four documented exceptions.", "quantifier": "every state, strings, time", "why_tests_cant": "all strings.", "anchors": ["tf2/src/buffer_core.cpp: validateFrameId, lookupTransform"]}
{"id": "C23", "title": "Leading slashes are normalised on input", "statement": "setTransform with ids /a and /b has exactly the effect of ids a and b (one slash removed).", "quantifier": "every message, every state", "why_tests_cant": "all strings/states.", "anchors": ["tf2/src/buffer_core.cpp: stripSlash, setTransform"]}
{"id": "C24", "title": "clear forgets all dynamic data and nothing else", "statement": "After clear() every frame whose data was dynamic has no data (lookups through it fail until new data arrives), static frames answer as before, and names, ids, static-ness and pending requests are kept; the buffer then behaves as a fresh one with the static transforms.", "quantifier": "every reachable state and subsequent query", "why_tests_cant": "all histories.", "anchors": ["tf2/src/buffer_core.cpp: clear", "tf2/src/static_cache.cpp: clearList", "tf2/src/cache.cpp: clearList"]}
{"id": "C25", "title": "setTransform only affects its own frame", "statement": "An accepted setTransform for child c changes the answers of per-frame queries only for c: every other frame keeps the parent and transform it had at every time; lookups whose path does not include c are unchanged.", "quantifier": "every state, message and query", "why_tests_cant": "frame condition over all other frames and times.", "anchors": ["tf2/src/buffer_core.cpp: setTransform"]}
{"id": "C26", "title": "Read your write", "statement": "After an accepted setTransform of child c, parent p, stamp t (t != 0), lookupTransform(p, c, t) succeeds and returns the stored transform.", "quantifier": "every reachable state, every accepted message", "why_tests_cant": "all histories before the write.", "anchors": ["tf2/src/buffer_core.cpp: setTransform, lookupTransform"]}
{"id": "C27", "title": "A fixed-frame lookup is the product of its two halves", "statement": "lookupTransform(target, t1, source, t2, fixed) returns lookup(target<-fixed, t1) * lookup(fixed<-source, t2) as a rigid motion, stamped as the first, for unit data.", "quantifier": "every state, names, times", "why_tests_cant": "rotation goes through matrix and back: all branches of the matrix-to-quaternion conversion.", "anchors": ["tf2/src/buffer_core.cpp: lookupTransform(5), transformMsgToTF2, transformTF2ToMsg", "tf2/include/tf2/LinearMath/Matrix3x3.h: getRotation, setRotation"]}
{"id": "C28", "title": "Quaternion-matrix round trip", "statement": "For every unit quaternion q the matrix of q is orthogonal with determinant 1 and rotates vectors as q does, and reading the matrix back as a quaternion gives q or -q (all four branches).", "quantifier": "all unit quaternions", "why_tests_cant": "continuum with four branches.", "anchors": ["tf2/include/tf2/LinearMath/Matrix3x3.h: setRotation, getRotation", "tf2/include/tf2/LinearMath/Quaternion.h: quatRotate"]}
{"id": "C29", "title": "Rigid transforms form a group and act on points", "statement": "For orthogonal bases Transform multiplication is associative, inverse() is the two-sided inverse, inverseTimes(t) = inverse()*t, invXform undoes application, and (a*b)(x) = a(b(x)).", "quantifier": "all real transforms", "why_tests_cant": "continuum.", "anchors": ["tf2/include/tf2/LinearMath/Transform.h"]}
{"id": "C30", "title": "Roll-pitch-yaw conventions agree", "statement": "Quaternion.setRPY(r,p,y) is a unit quaternion representing the same rotation as Matrix3x3.setRPY(r,p,y) = Rz(y)Ry(p)Rx(r), and setEuler likewise (Ry Rx Rz); away from gimbal lock both solutions of Matrix3x3.getEulerYPR rebuild the matrix; at gimbal lock they do not: the extraction then always returns yaw = roll = 0, so it rebuilds only Ry(+-pi/2).", "quantifier": "all real angles", "why_tests_cant": "continuum.", "anchors": ["tf2/include/tf2/LinearMath/Quaternion.h: setRPY, setEuler", "tf2/include/tf2/LinearMath/Matrix3x3.h: setEulerYPR, getEulerYPR"]}
{"id": "C31", "title": "tf2::getEulerYPR from a quaternion is equivalent to the matrix version", "statement": "For every nonzero quaternion whose pitch sine is below 0.99999 in absolute value, tf2::getEulerYPR(q) returns exactly the angles of Matrix3x3(q).getEulerYPR (as documented), and these rebuild the rotation of q; getYaw(q) is always the yaw of getEulerYPR(q). At exactly +90 degrees pitch the documented equivalence fails: the result is off by a half turn about the vertical.", "quantifier": "all unit quaternions", "why_tests_cant": "continuum with gimbal-lock cases.", "anchors": ["tf2/include/tf2/impl/utils.h: getEulerYPR, getYaw"]}
{"id": "C32", "title": "Pending requests fire at most once, and only for live handles", "statement": "Every request handle returned by addTransformableRequest (other than 0 and 2^64-1) leads to at most one callback invocation, whose handle, callback and frame names are those of the request. After cancelTransformableRequest of it or removal of its callback there is none, except: a call whose answer was already collected is still made (through a dangling reference if the callback was removed), and handles of 2^32 and above are truncated to 32 bits by cancel, so another request is cancelled.", "quantifier": "every history of requests, cancellations, callback removals, transforms and clears", "why_tests_cant": "all histories.", "anchors": ["tf2/src/buffer_core.cpp: addTransformableRequest, testTransformableRequests, cancelTransformableRequest, removeTransformableCallback"]}
{"id": "C33", "title": "A pending request is answered when it becomes answerable", "statement": "After every accepted setTransform that does not throw, no request remains pending that is transformable at its time or older than the cache window relative to the latest common time; every answer given is right at the moment it is given; the immediate answers of addTransformableRequest (0, never) agree with canTransform and the window; no request is lost except by cancellation, callback removal or an exception. Exceptions to the rule: a waiting request for time 0 is answered failure when the transform becomes available, and a request whose time plus the storage duration overflows makes setTransform throw and swallows the other answers.", "quantifier": "every history", "why_tests_cant": "every pending set and every tree.", "anchors": ["tf2/src/buffer_core.cpp: testTransformableRequests, addTransformableRequest"]}
{"id": "C34", "title": "Transformable callbacks receive dangling time and result arguments", "statement": "One would expect the time and result a transformable callback receives to be the request's time and the outcome computed for it. They are not: for every callback ever scheduled, the result argument refers to a variable whose scope has ended, and the time argument refers to an erased slot of the request vector or to another request's time.", "quantifier": "every history", "why_tests_cant": "reference lifetime: depends on the order of removal from the request vector.", "anchors": ["tf2/src/buffer_core.cpp: testTransformableRequests (boost::ref of loop-local result and of a vector slot)"]}
{"id": "C35", "title": "The listed chain is the path, except for one shape", "statement": "_chainAsVector lists exactly the frames on the path from source to target, once each, source first and target last (through a fixed frame: the two paths joined at it) - except when the source is a direct child of the frame where the two chains meet, the target is not that frame, and that frame has a parent: then every ancestor of the meeting frame is listed too, although it is not on the path.", "quantifier": "every reachable buffer, every pair of frames whose chains meet within the depth limit, every nonzero time", "why_tests_cant": "the exception depends on the shape of the tree; sibling pairs below the root are easily missed.", "anchors": ["tf2/src/buffer_core.cpp: _chainAsVector, walkToTopParent (frame_chain)"]}
{"id": "C36", "title": "Frame listings are exact", "statement": "_getFrameStrings lists every name ever mentioned in a validated setTransform once, in first-mention order; allFramesAsString lists exactly the frames that own a cache with their newest parent; _frameExists(f) iff f was mentioned (or is NO_PARENT); _getParent agrees with the cache.", "quantifier": "every history", "why_tests_cant": "all histories.", "anchors": ["tf2/src/buffer_core.cpp: _getFrameStrings, allFramesAsStringNoLock, _frameExists, _getParent"]}
{"id": "C37", "title": "Message filter conserves messages", "statement": "Every message given to a MessageFilter is exactly one of: ignored (no target frames), passed once, dropped once with a failure callback, still queued, or discarded by clear().", "quantifier": "every history of adds, transforms, clears and callback arrivals", "why_tests_cant": "all histories.", "anchors": ["tf2_ros/include/tf2_ros/message_filter.h: add, transformable, messageReady, messageDropped, clear"]}
{"id": "C38", "title": "Message filter queue is bounded", "statement": "With a constant non-zero queue size the number of queued messages never exceeds it, the oldest message is the one dropped, and the counter equals the list length.", "quantifier": "every history", "why_tests_cant": "all histories.", "anchors": ["tf2_ros/include/tf2_ros/message_filter.h: add, transformable, setQueueSize"]}
{"id": "C39", "title": "Message filter passes only transformable messages", "statement": "A message is passed only if, at that moment, every target frame can be transformed to the message's frame at its stamp (and at stamp + tolerance if a tolerance is set); with several threads, each of these was possible at some moment after add was called. (Findings: a message can be dropped although it can be transformed; if the target frames are changed during add, a message can be passed that was never transformable to all the old nor to all the new target frames.)", "quantifier": "every history, with calls of add interleaved with anything else; constant target frames and tolerance while a message is in the filter", "why_tests_cant": "all histories.", "anchors": ["tf2_ros/include/tf2_ros/message_filter.h: add, transformable"]}
{"id": "C40", "title": "Buffer server resolves each goal once", "statement": "Each goal accepted by BufferServer receives exactly one terminal status: succeeded with the lookup's result or error, or canceled; it is never resolved before the transform is available unless its timeout has expired; a goal whose transform is available or whose deadline has passed is resolved at the next check.", "quantifier": "every interleaving of goals, cancels, timer checks and buffer updates", "why_tests_cant": "all schedules.", "anchors": ["tf2_ros/src/buffer_server.cpp"]}
{"id": "C41", "title": "Errors survive the action round trip", "statement": "A lookup through BufferClient and BufferServer throws the same class of tf2 exception as the server-side lookup, or returns the same transform.", "quantifier": "every server-side outcome", "why_tests_cant": "all outcomes and sub-class catch order.", "anchors": ["tf2_ros/src/buffer_server.cpp: goalCB, checkTransforms", "tf2_ros/src/buffer_client.cpp: processResult", "tf2_msgs/msg/TF2Error.msg", "tf2/include/tf2/exceptions.h"]}
{"id": "C42", "title": "Static broadcaster latches the union of what was sent", "statement": "After any sequence of sendTransform calls the latched /tf_static message holds exactly one transform per child frame ever sent, the last one sent for that child.", "quantifier": "every sequence of calls", "why_tests_cant": "all sequences.", "anchors": ["tf2_ros/src/static_transform_broadcaster.cpp", "tf2_ros/src/tf2_ros/static_transform_broadcaster.py"]}
{"id": "C43", "title": "The listener applies every transform of a message and resets on time jumps", "statement": "Receiving a TF message calls setTransform for each contained transform in order with the topic's static flag, regardless of rejections; the buffer is cleared first exactly when the clock is earlier than at the previous message.", "quantifier": "every message and clock sequence", "why_tests_cant": "all sequences.", "anchors": ["tf2_ros/src/transform_listener.cpp: subscription_callback_impl"]}
{"id": "C44", "title": "Blocking waits return the final check and respect the deadline", "statement": "Buffer::canTransform with a timeout returns exactly the availability at its last check, returns true if the transform is available at the first check, and stops polling at the first poll at which the deadline has passed, the transform is available, the clock jumped back by more than 3 s or ROS is shutting down; without a dedicated thread it returns false.", "quantifier": "every clock and availability trace", "why_tests_cant": "all traces.", "anchors": ["tf2_ros/src/buffer.cpp: canTransform"]}
{"id": "C45", "title": "Lock acquisition cannot deadlock", "statement": "With any number of threads calling BufferCore and MessageFilter operations in any interleaving, the library's own mutexes cannot form a wait cycle (user callbacks excluded).", "quantifier": "every number of threads and every schedule", "why_tests_cant": "all schedules.", "anchors": ["tf2/src/buffer_core.cpp: frame_mutex_, transformable_requests_mutex_, transformable_callbacks_mutex_", "tf2_ros/include/tf2_ros/message_filter.h: messages_mutex_, target_frames_mutex_"]}
{"id": "C46", "title": "Concurrent calls are linearizable", "statement": "With any number of threads, every result of setTransform / lookupTransform / canTransform / clear equals that of some sequential order of the calls' critical sections; the five-argument lookupTransform is two critical sections and is not atomic.", "quantifier": "every schedule", "why_tests_cant": "all schedules.", "anchors": ["tf2/src/buffer_core.cpp: scoped_lock of frame_mutex_"]}
{"id": "C47", "title": "doTransform is a functor on points, vectors, poses and wrenches", "statement": "doTransform of points composes: applying T1 then T2 equals applying T2*T1; identity leaves data unchanged; vectors ignore translation; pose orientation stays unit; output header is the transform's header.", "quantifier": "all real data", "why_tests_cant": "continuum.", "anchors": ["tf2_geometry_msgs/include/tf2_geometry_msgs/tf2_geometry_msgs.h: doTransform"]}
{"id": "C48", "title": "Covariance transformation is R C R^T", "statement": "transformCovariance equals block-diagonal(R,R) * C * transpose, preserves symmetry and positive semidefiniteness, and composes.", "quantifier": "all real 6x6 matrices and rotations", "why_tests_cant": "continuum; index bookkeeping of 36 entries.", "anchors": ["tf2_geometry_msgs/include/tf2_geometry_msgs/tf2_geometry_msgs.h: transformCovariance"]}
{"id": "C49", "title": "Time arithmetic overflow is confined", "statement": "A stamp so large that stamp + cache duration is not representable makes setTransform throw; the buffer afterwards still satisfies every structural invariant (sorted caches, valid ids).", "quantifier": "every state and stamp", "why_tests_cant": "extreme inputs in every state.", "anchors": ["tf2/src/cache.cpp: insertData, pruneList", "ros::Time operator+ (external)"]}
{"id": "C50", "title": "Accepted non-unit quaternions break inverse consistency", "statement": "setTransform accepts quaternions whose squared norm n is off by less than 1%; for such a transform the two lookups between its frames compose to the scalar quaternion n and the translation (1-n^2)v, so opposite lookups are inverse only if the quaternion is exactly unit.", "quantifier": "all accepted transforms", "why_tests_cant": "continuum.", "anchors": ["tf2/src/buffer_core.cpp: QUATERNION_NORMALIZATION_TOLERANCE, TransformAccum::finalize", "tf2/include/tf2/LinearMath/Quaternion.h: inverse"]}
{"id": "C51", "title": "A frame's stored transforms depend only on messages for that frame", "statement": "After any history of setTransform and clear calls, the transforms stored for a frame are exactly those obtained by applying, in order, the well-formed messages for that frame (and the clears) to one cache: nothing sent for other frames, and no malformed message, has any influence; and for a dynamic frame they are exactly the well-formed messages of that frame since the last clear whose stamp is within the storage duration of the newest one.", "quantifier": "every history of calls, every frame, every storage duration", "why_tests_cant": "histories are unbounded and interleave frames arbitrarily.", "anchors": ["tf2/src/buffer_core.cpp: setTransform, clear, allocateFrame", "tf2/src/cache.cpp: insertData"]}
{"id": "C52", "title": "doTransform may be called in place", "statement": "Whether the input of doTransform is the output object itself or another object, the output afterwards holds what the transform makes of the input (its own sequence number, and for transforms its child frame, excepted), and no other object changes.", "quantifier": "all geometry message types, all memories, all values, in = out and in != out", "why_tests_cant": "aliasing has to be ruled out for every field and every value, not for a sample message.", "anchors": ["tf2_geometry_msgs/include/tf2_geometry_msgs/tf2_geometry_msgs.h: doTransform", "tf2/include/tf2/convert.h: doTransform"]}
{"id": "C53", "title": "Buffer::transform is a change of coordinates", "statement": "transform(msg, target) relabels the message with the target frame and keeps its stamp; transforming back gives the original message; going by way of a third frame gives exactly the message of the direct way; the version with a fixed frame equals transforming into the fixed frame and from there at the target time; the coordinates of a point of a child frame become q p q* + v in its parent.", "quantifier": "all buffers filled from empty with unit-quaternion data, all frames whose chains end, all times other than 0, all points, vectors, wrenches and poses", "why_tests_cant": "depends on every possible tree of frames and the continuum of data.", "anchors": ["tf2_ros/include/tf2_ros/buffer_interface.h: transform", "tf2/src/buffer_core.cpp: lookupTransform", "tf2_geometry_msgs/include/tf2_geometry_msgs/tf2_geometry_msgs.h: doTransform"]}
{"id": "C54", "title": "Transforming a point cloud moves every point once and nothing else", "statement": "doTransform on a PointCloud2 moves the coordinates of each point by the transform, leaves all other bytes and the layout alone, replaces the header by the transform's, works in place, and puts each point where doTransform puts a Point message.", "quantifier": "all clouds with distinct coordinate fields inside the point step, any number of points, in place or not", "why_tests_cant": "any number of points and any layout; in-place use reads and writes the same memory.", "anchors": ["tf2_sensor_msgs/include/tf2_sensor_msgs/tf2_sensor_msgs.h: doTransform"]}
{"id": "C55", "title": "Lookups never leave a closed family of transforms", "statement": "If every transform offered to the buffer belongs to a family that contains the identity and is closed under composition, inverse and interpolation, then every transform returned by any lookup belongs to it: unit quaternions in give unit quaternions out, and motions of the plane in (a planar robot) give motions of the plane out, also between samples, at time zero and through a fixed frame.", "quantifier": "all closed families, all histories, frames and times", "why_tests_cant": "every chain length, history and interpolation ratio.", "anchors": ["tf2/src/buffer_core.cpp: lookupTransform, TransformAccum", "tf2/src/cache.cpp: interpolate"]}
{"id": "C56", "title": "The interleaving of different broadcasters cannot be observed", "statement": "If two histories make, for every child frame, the same setTransform calls in the same order (and the same clears in between), then the resulting buffers answer every lookupTransform, canTransform, getParent, chain and frameExists query alike, list the same frames and return the same from the next setTransform: internal frame numbers and the interleaving of broadcasters for different frames never show.", "quantifier": "all pairs of histories that differ only in the interleaving of different children, all queries", "why_tests_cant": "the number of interleavings is unbounded.", "anchors": ["tf2/src/buffer_core.cpp: setTransform, lookupOrInsertFrameNumber, lookupTransform, canTransform, _getParent, _chainAsVector"]}
{"id": "C57", "title": "Axis and angle describe the rotation", "statement": "The quaternion built from an axis and an angle turns every vector by that angle about the direction of the axis by the right hand rule - as a quaternion, as a matrix and as Vector3::rotate - and angles about one axis add; the angle read from a unit quaternion lies in [0, 2 pi], its shortest form in [0, pi], the axis read is a unit vector, and axis and angle read back rebuild the quaternion outside the tolerance around a full turn; the angle between two quaternions is the angle of the rotation between them; the angle between two non-zero vectors or quaternions of any lengths is the number in [0, pi] whose cosine is the scalar product of their directions.", "quantifier": "all non-zero axes, all angles, all unit quaternions, all vectors", "why_tests_cant": "ranges over a continuum of axes and angles.", "anchors": ["tf2/include/tf2/LinearMath/Quaternion.h: setRotation, getAngle, getAngleShortestPath, getAxis, angle, angleShortestPath", "tf2/include/tf2/LinearMath/Vector3.h: rotate"]}
{"id": "C58", "title": "Shortest arc", "statement": "shortestArcQuat of two unit vectors that are not nearly opposite is a unit quaternion that turns the first into the second about an axis orthogonal to both, by the angle between them, and no rotation doing so has a smaller angle; for nearly opposite vectors it is a half turn taking the first to its exact opposite; tf2PlaneSpace1 completes a unit vector to a right-handed orthonormal triple; nearest and farthest choose between a quaternion and its negative by the side of the dot product.", "quantifier": "all pairs of unit vectors, all quaternions", "why_tests_cant": "a continuum of vectors, with a special case near the antipode.", "anchors": ["tf2/include/tf2/LinearMath/Quaternion.h: shortestArcQuat, shortestArcQuatNormalize2, nearest, farthest", "tf2/include/tf2/LinearMath/Vector3.h: tf2PlaneSpace1"]}
{"id": "C59", "title": "A lookup is a function of the messages sent", "statement": "Given only the history of setTransform calls (and clears): for each frame, the messages that count at time t are the first one per stamp not older than the newest by more than the cache duration; they say where the frame was at t (exact message, interpolation between neighbours, the older one across a parent change, the last one if static). lookupTransform at t succeeds exactly when following what the messages say leads from both frames to a common frame, and it returns the composition along these ways.", "quantifier": "all histories within the range of the time type that do not publish the reserved frame name, all frames, all non-zero times", "why_tests_cant": "relates any unbounded history to any query.", "anchors": ["tf2/src/buffer_core.cpp: setTransform, lookupTransform", "tf2/src/cache.cpp: insertData, getData, pruneList"]}
{"id": "C60", "title": "Availability in a fixed tree, its persistence, and stability of past answers", "statement": "When all messages agree with one tree, canTransform(a, b, t) is true exactly when every frame on the ways from a and b to some common frame has messages on both sides of t within the cache duration; it stays true while nothing newer than t + duration - sample gap arrives; and the answer for t stays the same when only newer data arrive. (Finding: data reach back less than the cache duration, by up to one gap between messages.)", "quantifier": "all trees, all histories agreeing with them, all continuations", "why_tests_cant": "unbounded histories and continuations.", "anchors": ["tf2/src/buffer_core.cpp: canTransform, lookupTransform", "tf2/src/cache.cpp: pruneList, findClosest"]}
{"id": "C61", "title": "No message waits in vain in the message filter", "statement": "If callbacks of the buffer run and clear is called only while no add is in progress, and target frames and tolerance change only while no message is queued, then whenever no callback of the buffer is outstanding each queued message still has an unanswered request at the buffer for one of its target frames; and after an accepted setTransform, once the callbacks it caused have been made and until the buffer changes again, no queued message can be transformed to all target frames at its stamp and stamp plus tolerance. Without those conditions messages can be stranded: an answer that arrives between the request and the queueing of the message, target frames added while it waits, and clear during an add each leave a transformable message in the queue with nothing outstanding.", "quantifier": "all histories of the buffer, all orderly programs with one filter, all target lists, tolerances, queue sizes and message headers", "why_tests_cant": "a message is lost by waiting for ever, which no finite test observes; it depends on the interleaving of add, setTransform, callbacks and settings", "anchors": ["tf2_ros/include/tf2_ros/message_filter.h: add, transformable, setTargetFrames, setTolerance, clear", "tf2/src/buffer_core.cpp: testTransformableRequests, addTransformableRequest"]}
{"id": "C62", "title": "Frame reports tell the truth", "statement": "allFramesAsYAML and _allFramesAsDot raise no exception and report exactly one entry for each frame the buffer holds a transform for, in the order of _getFrameStrings: the number of stored transforms (not zero), the newest and oldest stamp among them, the parent of the newest one as in allFramesAsString, a buffer length equal to their difference and between 0 and the cache duration, a finite rate, and as broadcaster the authority of the last setTransform of that frame that returned true, whatever was refused or cleared since. The graph draws the same edges and, given a positive time, marks as root exactly the known frames that hold no transform to a named parent.", "quantifier": "all histories of setTransform and clear with a non-negative cache duration and representable stamps, all current times", "why_tests_cant": "depends on the whole history of accepted, refused, pruned and cleared messages.", "anchors": ["tf2/src/buffer_core.cpp: allFramesAsYAML, _allFramesAsDot, setTransform (frame_authority_)", "tf2/src/cache.cpp: getListLength, getLatestTimestamp, getOldestTimestamp, pruneList"]}
{"id": "C63", "title": "Conversions between messages and library types lose nothing", "statement": "toMsg followed by fromMsg (and the other way round) restores every vector, point, quaternion, twist and wrench of tf2, Eigen, KDL and Bullet exactly, with stamp and frame, whatever the object written to held before; a rigid transform is restored exactly and a pose message with a unit quaternion up to the quaternion's sign (Eigen always writes w >= 0, so one message per rotation); tf2::convert between two libraries' types changes nothing; only the sequence number is lost.", "quantifier": "all values, all messages, all previous contents of the output object, all linear-algebra libraries whose quaternion/matrix functions are correct on unit quaternions and rotations", "why_tests_cant": "ranges over a continuum of values and over what the output held.", "anchors": ["tf2_geometry_msgs/include/tf2_geometry_msgs/tf2_geometry_msgs.h: toMsg, fromMsg", "tf2_eigen/include/tf2_eigen/tf2_eigen.h: toMsg, fromMsg, transformToEigen, eigenToTransform", "tf2_kdl/include/tf2_kdl/tf2_kdl.h: toMsg, fromMsg, transformToKDL, kdlToTransform", "tf2_bullet/include/tf2_bullet/tf2_bullet.h: toMsg, fromMsg", "tf2/include/tf2/convert.h: convert", "tf2/include/tf2/impl/convert.h: Converter"]}
{"id": "C64", "title": "Every library transforms alike", "statement": "Converting a stamped point, pose or wrench message to Eigen, KDL or Bullet, transforming it there and converting it back gives the message that tf2_geometry_msgs (C++ and Python) computes; transforming a KDL twist moves the velocity field of the body along with it, and the power of a wrench on a twist is the same in every frame; stamp and frame of the result are the transform's; input and output may be one object. (Finding: this needs exactly unit quaternions although the buffer accepts others.)", "quantifier": "all transforms with a unit quaternion, all points, poses, frames, twists and wrenches, all sound libraries, aliased or separate arguments", "why_tests_cant": "ranges over a continuum of transforms and data and over several independent implementations.", "anchors": ["tf2_eigen/include/tf2_eigen/tf2_eigen.h: doTransform", "tf2_kdl/include/tf2_kdl/tf2_kdl.h: doTransform", "tf2_bullet/include/tf2_bullet/tf2_bullet.h: doTransform", "tf2_geometry_msgs/src/tf2_geometry_msgs/tf2_geometry_msgs.py: do_transform_point, do_transform_vector3, do_transform_pose", "tf2_geometry_msgs/include/tf2_geometry_msgs/tf2_geometry_msgs.h: doTransform"]}
{"id": "C65", "title": "A late subscriber of static transforms catches up", "statement": "A buffer that subscribes to the static topic after any number of sendTransform calls of a StaticTransformBroadcaster, and a buffer that was subscribed from the start, give the same successful lookups with the same value between any two frames whose chains of parents end, at every time except zero, whatever other transforms both receive, in whatever interleaving; provided the static messages are well formed, written without leading slashes, and nobody else publishes their child frames. If moreover every parent frame named by a static transform sent before the late buffer subscribed is known to it, no query at all tells the two buffers apart: lookups and exceptions at every time including zero, with and without a fixed frame, canTransform, listings. (Finding: without that proviso, a frame named only by a superseded static transform is known to one and unknown to the other. Finding: a malformed message replaces a good one in the latched message.)", "quantifier": "all sequences of sendTransform calls, all connection points, all common dynamic traffic, all interleavings, all frames and non-zero times", "why_tests_cant": "ranges over histories, connection points and interleavings.", "anchors": ["tf2_ros/src/static_transform_broadcaster.cpp: sendTransform", "tf2_ros/src/transform_listener.cpp: subscription_callback_impl", "tf2/src/buffer_core.cpp: setTransform, lookupTransform", "tf2/src/static_cache.cpp: insertData, getData"]}
{"id": "C66", "title": "Every stamp served is one that was published, or the one asked for", "statement": "lookupTransform at a nonzero time answers with exactly that stamp, and so does the fixed-frame lookup with a nonzero target time; at time zero the stamp of the answer is zero or the stamp of a well-formed message that was offered to setTransform - never a stamp made up by interpolation, rounding or pruning. The latest common time of two frames is likewise zero or the stamp of such a message.", "quantifier": "all histories of setTransform and clear, all frames and times, both lookups", "why_tests_cant": "an unbounded history of messages, chains of any length.", "anchors": ["tf2/src/buffer_core.cpp: lookupTransform, getLatestCommonTime", "tf2/src/cache.cpp: getData, getLatestTimeAndParent"]}
{"id": "C67", "title": "Times through the Python binding", "statement": "A stamp passed from Python to the buffer arrives as given while it is below 2^23 s, within 119 ns before 2038 and within 238 ns up to the last representable stamp, the last 238 of which end the process; order is kept, zero and only zero becomes zero, and a second passage changes nothing, so every stamp Python reads from its buffer is passed back unchanged; a stored transform is found again at the very stamp it was published with. (Findings: from 2004 on stamps up to 119 ns apart can become one, so that the later of two transforms is silently lost; from January 2038 on every successful lookup ends the process.)", "quantifier": "all stamps, all correct roundings of floating point operations (ties either way), all histories of a Python buffer", "why_tests_cant": "ranges over 2^62 stamps and over histories; the deviation shows only at particular stamps.", "anchors": ["tf2_py/src/tf2_py.cpp: rostime_converter, transform_converter, setTransform, setTransformStatic, lookupTransformCore, lookupTransformFullCore, getLatestCommonTime"]}
{"id": "C68", "title": "The Python buffer answers and waits like the C++ one", "statement": "For every request, up to the passage of its times through doubles: can_transform[_full] of a Python buffer never raises and gives the C++ answer; lookup_transform[_full] returns what the C++ lookup returns (before 2038) and otherwise raises the exception class the C++ lookup throws, exactly when the transform is not available. With a timeout, the answer is that of a last check made after polls that all went to sleep and one that found the transform available, the deadline passed or the clock set back by more than three seconds; a transform that becomes available for good during the wait is seen within one sleep; once the deadline has passed for good the call returns; only a negative deadline and an interrupted sleep end it otherwise. The Python action client sends the goals of the C++ client and makes of every outcome what it makes of it. (Findings: set_transform returns None for a refused transform; get_latest_common_time raises the base class where lookups raise ConnectivityException.)", "quantifier": "all Python buffers (any history), all requests, timeouts, clocks, and evolutions of the buffer during the wait", "why_tests_cant": "depends on what other threads and the clock do between any two polls; unbounded histories.", "anchors": ["tf2_py/src/tf2_py.cpp: WRAP, canTransformCore, canTransformFullCore, lookupTransformCore, lookupTransformFullCore, getLatestCommonTime, setTransform", "tf2_ros/src/tf2_ros/buffer.py: can_transform, can_transform_full, lookup_transform, lookup_transform_full", "tf2_ros/src/tf2_ros/buffer_client.py: BufferClient"]}
{"id": "C69", "title": "The Python transform listener", "statement": "Whatever the schedule of its callbacks (any number at a time): each offers to the buffer the transforms of its message in their order, unaltered, under the publisher's name and static by topic - an initial part while it runs, all when it has returned - and nothing else is offered; the buffer is cleared exactly when a callback reads a clock earlier than the callback that read it last; callbacks that do not overlap make exactly the calls the C++ listener makes. (Finding: a callback past the clock check can store old data after another cleared the buffer, after which new data are refused as too old.)", "quantifier": "all schedules of all callbacks, messages, clocks, and other users of the buffer", "why_tests_cant": "a race between callback threads; depends on unbounded interleavings.", "anchors": ["tf2_ros/src/tf2_ros/transform_listener.py: TransformListener", "tf2_ros/src/transform_listener.cpp: subscription_callback_impl"]}
{"id": "C70", "title": "Transforming objects in Python", "statement": "buffer.transform and transform_full of Python: for every class that tf2_geometry_msgs and tf2_kdl register (points, free vectors, poses, wrenches; PyKDL vectors, frames, twists, wrenches), transforming into another frame and back gives the object back; going by way of a frame is going directly; the fixed-frame version is the composition of two plain ones; for points, vectors and poses the outcome (value, header, exception class) is that of C++ on the same buffer, after whatever wait. An object of a class nothing was registered for raises TypeException before the buffer is asked; new_type=c is convert(result, c). (Finding: registries are per process, the last import wins.)", "quantifier": "all histories of a Python buffer with unit quaternions, all objects of these classes, frames, times, timeouts, all orders of imports and other registrations, all sound KDL libraries", "why_tests_cant": "ranges over histories, a continuum of objects, and over the order of imports in a process.", "anchors": ["tf2_ros/src/tf2_ros/buffer_interface.py: BufferInterface, TransformRegistration", "tf2_geometry_msgs/src/tf2_geometry_msgs/tf2_geometry_msgs.py", "tf2_kdl/src/tf2_kdl/tf2_kdl.py"]}
{"id": "C71", "title": "Conversion in Python", "statement": "After any history of registrations, what is used for a key is what was registered last for exactly that key. convert(a, c) uses a conversion registered for the two classes unless it raises TypeException, otherwise copies an object of class c and takes any other through its message, raising TypeException if one half is missing. PointStamped to PyKDL.Vector and back (and the other way) restores the value with stamp and frame; converting before transforming is transforming with new_type. (Findings: converting between PointStamped, Vector3Stamped and PoseStamped returns the argument unchanged, of the wrong class; Vector3Stamped to PyKDL.Vector fails with AttributeError instead of TypeException; a TypeException out of a registered conversion is swallowed.)", "quantifier": "all histories of registrations, all objects and classes", "why_tests_cant": "registrations are made by arbitrary modules in arbitrary order.", "anchors": ["tf2_ros/src/tf2_ros/buffer_interface.py: convert, ConvertRegistration", "tf2_geometry_msgs/src/tf2_geometry_msgs/tf2_geometry_msgs.py: to_msg_msg, from_msg_msg", "tf2_kdl/src/tf2_kdl/tf2_kdl.py: to_msg_vector, from_msg_vector, convert_vector"]}
{"id": "C72", "title": "The command line publisher of static transforms", "statement": "static_transform_publisher, given x y z yaw pitch roll frame child, x y z qx qy qz qw frame child, or the name of a parameter, publishes exactly one transform on the static topic, latched, stamped now, with exactly that translation and rotation (angles: Rz(yaw) Ry(pitch) Rx(roll), unit quaternion); any other number of arguments, a missing parameter or one lacking a member, or equal frame names make it exit with a nonzero code and publish nothing. Every buffer that receives what it published, and nothing else about the child, answers lookups between the two frames with it at every nonzero time, whatever else it holds. (Findings: names that differ in a leading slash only, and quaternions far from unit length, are published and refused by every buffer; a parameter with a number written without decimal point passes the validation and ends the program with an exception.)", "quantifier": "all argument vectors, all contents of the parameter server, all histories of the receiving buffers, all times", "why_tests_cant": "ranges over all argument vectors, parameter values and histories of the receivers.", "anchors": ["tf2_ros/src/static_transform_broadcaster_program.cpp: main, validateXmlRpcTf", "tf2_ros/src/static_transform_broadcaster.cpp"]}
{"id": "C73", "title": "The picture of the tree", "statement": "view_frames, with frame names YAML reads as strings: the picture has exactly one arrow for every frame the buffer holds data of, from the parent of its newest transform, labelled with what the buffer holds of it, and no other arrow; if no frame is above itself and there is any data, a picture is always drawn; its legend points to a frame that has children and no parent, in a single tree to its root; a buffer that never heard of a frame gives the picture 'no data'. It fails only if frames are known but none holds data, or if every parent with data has data itself, which implies a loop. (Findings: a loop made by two broadcasters, a buffer just cleared, make it fail; a frame named like a YAML constant is drawn under another name; with several trees the legend points to one only.)", "quantifier": "all histories of a buffer, all frame names, all shapes of the forest", "why_tests_cant": "ranges over all histories and all forests of frames.", "anchors": ["tf2_tools/scripts/view_frames.py: generate_dot", "tf2/src/buffer_core.cpp: allFramesAsYAML"]}
{"id": "C74", "title": "echo", "statement": "echo.py: as long as it has not ended, every call of its timer shows exactly what the lookup on the buffer of that moment gives for the time asked for (fixed, offset from now, or latest): the transform, or a logged LookupException or ExtrapolationException; with a limit l exactly the first l calls look up; after the end nothing is shown. The roll, pitch and yaw printed lie in the usual ranges and Rz(yaw) Ry(pitch) Rx(roll) is the rotation of the quaternion, unit or not - exactly away from the poles, where they equal those of C++, within twice the cosine of the pitch next to them (so exactly at the poles). (Findings: a ConnectivityException, and a negative time, silently end the timer's thread for good; --cache_time never works.)", "quantifier": "all sequences of calls, buffers and clock readings, all arguments, all quaternions not nearly zero", "why_tests_cant": "ranges over all runs of the timer and a continuum of rotations including the poles.", "anchors": ["tf2_tools/scripts/echo.py: Echo, _euler_from_matrix, _quaternion_matrix", "tf2_py/src/tf2_py.cpp"]}
{"id": "C75", "title": "clouds in Python", "statement": "do_transform_cloud of Python: for a cloud whose fields do not overlap, the result has as many points and the same fields; in every point, organised in rows or not, with or without padding, the first three values are moved by the transform as a point and every other value is kept; the header is the transform's; a cloud whose data are cut short, or with fewer than three values per point, gives an exception and nothing else does. Transforming there and back restores every value, two transforms in a row are their composition, and for a unit quaternion with x, y, z first the points are those C++ computes. (Findings: the coordinates are not found by name - with an intensity field first the wrong values are moved; an organised cloud becomes a single row.)", "quantifier": "all clouds (any number of points, rows, fields, steps, paddings) and all transforms", "why_tests_cant": "ranges over all layouts and sizes of clouds and all rigid motions.", "anchors": ["tf2_sensor_msgs/src/tf2_sensor_msgs/tf2_sensor_msgs.py: do_transform_cloud, transform_to_kdl"]}
{"id": "C76", "title": "diagonalising a matrix", "statement": "Matrix3x3::diagonalize, for every symmetric matrix, every threshold >= 0 and every number of steps: it never divides by zero; rot * new * rot^T is the old matrix and rot is a rotation, both up to the precision of the machine once per step; new is symmetric with the same trace, no larger and no further from diagonal than before; every step takes away at least a third of what is off the diagonal until the threshold is reached, so with threshold 0 enough steps make it as diagonal as one likes. (Findings: even in exact arithmetic rot is not exactly a rotation for nearly diagonal matrices; a negative threshold divides by zero.)", "quantifier": "all symmetric 3x3 real matrices, all thresholds, all numbers of steps, all machine precisions eps in (0,1]", "why_tests_cant": "ranges over a continuum of matrices and any number of iterations.", "anchors": ["tf2/include/tf2/LinearMath/Matrix3x3.h: diagonalize"]}
{"id": "C77", "title": "quaternions that are not quite normalised", "statement": "setTransform accepts quaternions whose squared length is off by less than 0.01. For every history of calls, the squared length of the quaternion of an answer found over n transforms (source up to the common frame and down to the target), interpolated or not, is between 0.99^n and 1.01^n; more generally between lo^n and hi^n if those accepted are between lo and hi, so with unit quaternions the answer is a unit quaternion; and if every accepted translation is at most L long, that of the answer is bounded by the corresponding geometric sum, n*L for unit quaternions. (Findings: the answer of a buffer can be refused by setTransform; the excess length acts as a change of scale on translations: a point 1000 m away in an unrotated frame is reported at 1008.016 m.)", "quantifier": "all histories of setTransform and clear, all frames, all times", "why_tests_cant": "ranges over all histories, trees of any depth and all real quaternions.", "anchors": ["tf2/src/buffer_core.cpp: setTransform, lookupTransform, TransformAccum", "tf2/src/cache.cpp: interpolate", "tf2/include/tf2/LinearMath/Quaternion.h: slerp, quatRotate, inverse"]}
{"id": "C78", "title": "normalised angles and the fast arc tangent", "statement": "tf2NormalizeAngle of every finite double, with any correct rounding, is a double of magnitude at most half a turn that differs from the argument by an exact whole number of turns (a turn being the constant TF2SIMD_2_PI); arguments that differ by whole turns give the same result, or the two half turns; an angle of at most half a turn is unchanged; the result is the smallest representative; and the function is odd. tf2Atan2Fast is not a number exactly at the origin, elsewhere it differs from the true arc tangent by at most 0.076, stays within a half turn, has the same sign, orders directions as the true one does and is exact in the eight main directions. (Finding: the two half turns, which stand for the same direction, are not identified.)", "quantifier": "all finite doubles and all correct roundings; all pairs of real numbers", "why_tests_cant": "ranges over all doubles and all real arguments.", "anchors": ["tf2/include/tf2/LinearMath/Scalar.h: tf2NormalizeAngle, tf2Fmod, tf2Atan2Fast, TF2SIMD_2_PI"]}
{"id": "C79", "title": "smallest, largest, clamped, selected, swapped", "statement": "minAxis and maxAxis name a smallest and a largest component (the last, resp. the first, among equal ones), furthestAxis and closestAxis by absolute value; maxAxis4/minAxis4 name the first such or -1; tf2Min/Max and SetMin/SetMax are minimum and maximum, and folding Vector3 setMin/setMax over any list of points gives the corners of their bounding box; GEN_clamp(ed) gives the nearest point of the interval when the bounds are in order; tf2Select returns its second argument iff the condition is nonzero, and is undefined exactly for 0x80000000; tf2SwapEndian reverses the bytes and is its own inverse. (Findings: maxAxis4 gives -1 for a vector below -1e30; clamp with exchanged bounds returns values outside.)", "quantifier": "all values of any linear order (all reals), all lists of points, all 32- and 16-bit words", "why_tests_cant": "ranges over all values and over lists of points of any length.", "anchors": ["tf2/include/tf2/LinearMath/MinMax.h", "tf2/include/tf2/LinearMath/Vector3.h: minAxis, maxAxis, setMin, setMax, tf2Vector4::maxAxis4", "tf2/include/tf2/LinearMath/Scalar.h: tf2Select, tf2SwapEndian"]}
{"id": "C80", "title": "operands that are the same object", "statement": "For every memory and every placement of the operands - the same object or objects apart - the in-place operators of LinearMath compute what the operators on values do, and write nothing but the left operand: +=, -=, *= of vectors and of quaternions, /= by any scalar including an own component, *= of matrices and transforms including x *= x, assignment, setInterpolate3, mult with the destination as second factor; scaling by a reference and setValue from references when no referenced cell is written before it is read. getOpenGLMatrix read by columns is the homogeneous matrix of the transform and setFromOpenGLMatrix restores it. getSkewSymmetricMatrix is the cross product and tf2PlaneSpace1 gives the vectors of C58 for separate outputs. tf2SwapVector3Endian reverses the bytes of each scalar and tf2UnSwapVector3Endian undoes it. (Findings: v *= v.x(), v.setValue(v.y(), v.x(), v.z()), t.mult(t, u), tf2PlaneSpace1(n, n, q), getSkewSymmetricMatrix into the vector itself and tf2SwapScalarEndian in place give wrong results; operator== of vectors looks at a fourth cell that setInterpolate3 leaves unset; the OpenGL functions write past the documented array.)", "quantifier": "all memories over any commutative ring (field, reals), all addresses of operands, all reference and temporary arguments", "why_tests_cant": "ranges over all contents of memory and all ways the operands can share it; tests use distinct objects.", "anchors": ["tf2/include/tf2/LinearMath/Vector3.h: operator*=, setValue, setInterpolate3, operator==, getSkewSymmetricMatrix, tf2PlaneSpace1, tf2SwapScalarEndian", "tf2/include/tf2/LinearMath/Quaternion.h: operator*=", "tf2/include/tf2/LinearMath/Matrix3x3.h: operator*=, getOpenGLSubMatrix", "tf2/include/tf2/LinearMath/Transform.h: mult, operator*=, getOpenGLMatrix"]}
{"id": "C81", "title": "error texts tell the truth", "statement": "For every history, request and renderer of numbers (at most 20 characters per number, no NUL): canTransform with an error string returns what it returns without one and leaves the string alone on true, or throws std::runtime_error - the latter only if data is stored 2^31 s or more away from the time asked for on the way up from one of the frames. When it returns false for two known frames, the string is a true sentence about this request naming both frames: two trees, a chain beyond the depth limit (with the listing of frames), or data missing at that time of a frame on the way, quoting a stamp that is stored, the extreme of the stamps on that side. lookupTransform throws with exactly the text canTransform writes into an empty string, and unknown, empty or slash-prefixed names are named together with the argument. Names of together at most 784 characters appear in full in extrapolation texts. (Findings: illegal names give false and no text; after clear() no reason is given and the caller's old string is presented as the reason; unknown-frame texts are appended while the others overwrite; lookupTransform of a transform that is stored throws std::runtime_error from preparing a text nobody reads when other data is 2^31 s away; tf2_ros returns a non-empty errstr on success.)", "quantifier": "all histories of calls, all pairs of names, all times, all contents of the caller's string, all decimal renderings of times", "why_tests_cant": "ranges over all buffers and requests; tests compare at most a few strings, and none checks that a quoted stamp is the relevant one.", "anchors": ["tf2/src/cache.cpp: createExtrapolationException1, createExtrapolationException2, createExtrapolationException3, TimeCache::findClosest", "tf2/src/buffer_core.cpp: walkToTopParent, canTransformNoLock, canTransformInternal, validateFrameId, warnFrameId, createConnectivityErrorString, getLatestCommonTime, lookupTransform", "tf2_ros/src/buffer.cpp: conditionally_append_timeout_info, canTransform"]}
{"id": "C82", "title": "set_transform from Python: stored as given, or an exception and nothing stored", "statement": "For every Python object given to tf2_py's set_transform or set_transform_static: if it has the attributes of a TransformStamped, string names and a stamp whose to_sec() is in range, the buffer does exactly what setTransform does for the message with the object's numbers; a TypeError (missing stamp or to_sec, missing component) leaves the buffer as it was; None is returned only if every component was a number; instances of the message classes behave as in the model of C67 and raise nothing. can_transform_core returns the C++ flag and the text of C81. (Findings: a component that is not a number raises SystemError but the transform is stored with -1 in its place; with warnings turned into errors a look-alike class raises and is stored; a missing header, child_frame_id, frame_id, transform, translation or rotation, or a name that is not a string, ends the process; attributes computed on access are used after they are freed; can_transform with data 2^31 s away ends the process.)", "quantifier": "all Python objects (trees of attributes, strings, numbers, computed or stored), all buffers, static or not, warnings as errors or not", "why_tests_cant": "ranges over all Python objects; tests pass messages of the right class.", "anchors": ["tf2_py/src/tf2_py.cpp: setTransform, setTransformStatic, checkTranslationType, checkRotationType, rostime_converter, canTransformCore", "tf2_py/src/python_compat.h: pythonBorrowAttrString, stringFromPython"]}
{"id": "C83", "title": "Lookups at time zero as a function of the messages sent; they never go back in time", "statement": "Whatever messages have been sent, a lookup at time 0 between two frames is decided by the newest transform told for each frame (static: the last one; dynamic: the one with the largest stamp since the last clear): if following newest transforms leads both frames to one root, the lookup is stamped with the smallest stamp of the dynamic ones on the two ways to the frame where they first meet, and is the lookup at that time (or, if all are static, the composition of the static transforms, stamped 0); if it leads to different roots, ConnectivityException. While all messages agree with one tree and clear is not called, the stamp of successful lookups at time 0 (also of a frame to itself) never decreases, whatever is sent in between, in whatever order. (Finding: moving a frame to another parent, or clear, makes the latest time go back.)", "quantifier": "all histories of setTransform/clear calls with stamps in range, all pairs of frames, all continuations of a history", "why_tests_cant": "ranges over all histories and all continuations; a test compares a few lookups.", "anchors": ["tf2/src/buffer_core.cpp: getLatestCommonTime, walkToTopParent, lookupTransform", "tf2/src/cache.cpp: getLatestTimeAndParent, getLatestTimestamp"]}
{"id": "C84", "title": "Rounding error of lookups: bounded, linear in the rotation, quadratic in the translation", "statement": "On a machine that rounds after every floating-point operation (doubles, to nearest), a lookup throws exactly when the lookup in exact arithmetic throws, with the same exception, and otherwise returns the same names and stamp. If all quaternions offered have unit length up to 1e-6 and all translations are at most L long, an answer over N transforms (of at most 2000) has a rotation within 2(N+1)(10u+dq+16eta) and a translation within 4(N+1)^2(10u+dq+16eta)L + 2(N+1)(dt+40eta) of the exact one, where u is the unit roundoff, eta the underflow error and dq, dt bound the error of the machine's interpolation (0 if all transforms are static). With doubles and static transforms: (N+1)/2^48 and (N+1)^2(L/2^47+2^-1000).", "quantifier": "all roundings with the stated relative error (all round-to-nearest doubles, whatever ties do), all histories of setTransform/clear calls with such messages, all frames and times", "why_tests_cant": "the error depends on every value and on the depth of the tree; a test can only compare a few chains with a tolerance chosen by hand.", "anchors": ["tf2/include/tf2/LinearMath/Quaternion.h: operator*, quatRotate", "tf2/include/tf2/LinearMath/Vector3.h: operator+", "tf2/src/buffer_core.cpp: TransformAccum, walkToTopParent, setTransform (normalization check)"]}
{"id": "C85", "title": "Rounding error of interpolation, and of lookups over moving transforms", "statement": "On a machine with IEEE doubles (round to nearest) and a C library whose sin, acos and sqrt are good to 5e-16 relative, interpolating between two stored transforms whose quaternions have unit length up to tau (squared) and do not differ by half a turn, for all stamps up to 10^19 ns, is within 1e-7+2tau of the exact rotation and within 2e-14 L+1e-50 of the exact translation. Hence every lookup over histories of such messages, static or not, throws exactly what the exact lookup throws or returns the same names and stamp and, over N transforms, a rotation within (N+1)(3e-7+4tau) and a translation within (N+1)^2((5e-7+8tau)L+1e-40). The exclusion of half turns is needed (interpolation jumps there), and the order of magnitude is right: between rotations 4e-9 apart the interpolation on doubles sticks to the older one.", "quantifier": "all round-to-nearest functions on doubles, all accurate C libraries, all pairs of transforms and ratios, all histories, frames and times", "why_tests_cant": "sin, acos and the division near small angles amplify rounding errors in a way that depends on the values; no finite set of rotations shows the worst case.", "anchors": ["tf2/src/cache.cpp: TimeCache::interpolate", "tf2/include/tf2/LinearMath/Quaternion.h: slerp, angleShortestPath, dot", "tf2/include/tf2/LinearMath/Vector3.h: setInterpolate3", "tf2/include/tf2/LinearMath/Scalar.h: tf2Acos"]}
{"id": "C86", "title": "Only the data counts: order of delivery, repetitions and refused messages leave no trace", "statement": "What a buffer answers depends only on the data that counts: the names heard, whether each frame was first published static or dynamic, the last message of each static frame, and for each dynamic frame the first message per stamp within the cache duration of the newest. Two histories that agree on these (in any order, with repetitions, refused or expired messages, different senders and clears) give the same transforms, exceptions, availability, parents, chains, frame lists and setTransform results, now and after any further calls. In particular a malformed, repeated or too old message can be left out at any point, and messages that do not contradict each other can be delivered in any order and any number of times.", "quantifier": "all pairs of histories with the same data, all further calls, all queries", "why_tests_cant": "the buffers of two histories differ in frame numbers and internal order, and the number of interleavings, repetitions and possible later calls is unbounded.", "anchors": ["tf2/src/buffer_core.cpp: setTransform, lookupTransform, canTransform, lookupOrInsertFrameNumber", "tf2/src/cache.cpp: insertData, pruneList", "tf2/src/static_cache.cpp: insertData"]}
{"id": "C87", "title": "Answers move no faster than what was published", "statement": "Let all messages agree with one tree, have unit quaternions and translations of at most L, and let no frame be published as moving faster than v and turning faster than w (from one message that counts to the next). Then the answers to lookups between two frames at times t1 <= t2 (not 0), with N transforms between the frames, place a point u of the source frame at positions at most N*(v + w*(|u| + N*L))*(t2 - t1) apart; answers do not jump at message times, between messages or when messages are missing. If nothing is published as moving the answers are the same at all times. Without the tree this is false: when a frame changes parent, answers jump though nothing is published as moving.", "quantifier": "every history of setTransform/clear calls agreeing with a tree (any depth up to 1000, any order of arrival), every pair of frames, every pair of times for which the lookups succeed, every point, every v, w, L", "why_tests_cant": "continuity in time is a statement about all pairs of times and all histories; tests sample a few times between two messages", "anchors": ["tf2/src/cache.cpp:TimeCache::interpolate", "tf2/src/cache.cpp:TimeCache::findClosest", "tf2/src/buffer_core.cpp:lookupTransform", "tf2/include/tf2/LinearMath/Quaternion.h:slerp", "tf2/include/tf2/LinearMath/Vector3.h:setInterpolate3"]}
{"id": "C88", "title": "Listeners for changed transforms", "statement": "A listener registered with _addTransformsChangedListener is called exactly once for each transform setTransform accepts while it is connected (calls still to come included), in every interleaving of calls, threads and listeners that call back; as soon as no notification is under way, it has been called after the latest accepted transform was stored. Refused transforms, clear and requests call nobody; a disconnected listener is never called again. Two exceptions are proved: when setTransform throws while testing requests the listeners are not told although the transform is stored, and clear tells nobody.", "quantifier": "all histories and interleavings of setTransform, clear, request and listener calls and of the calls of emissions under way; all listeners", "why_tests_cant": "the claim counts calls over every interleaving of threads and re-entrant listeners; tests run a few", "anchors": ["tf2/src/buffer_core.cpp:BufferCore::_addTransformsChangedListener", "tf2/src/buffer_core.cpp:BufferCore::_removeTransformsChangedListener", "tf2/src/buffer_core.cpp:BufferCore::testTransformableRequests"]}
{"id": "C89", "title": "NaN, infinities and overflow", "statement": "On IEEE double arithmetic setTransform rejects, without any effect, every message with NaN in one of its seven numbers, with an infinite number in its rotation or with a rotation that is not a unit quaternion (0.0101 in the squared length), and calls no message with a unit rotation (0.0099), no NaN in the translation and good names invalid. Whatever was offered, the rotation in every answer of lookupTransform consists of numbers, interpolated or not and between opposite rotations; if no offered translation was infinite or larger than 1e290 the whole answer does: no NaN, no infinity, no overflow. The same holds for the lookup with two times and a fixed frame, whose rotation moreover is a unit quaternion up to 2e-12 however long the chains, so that its answer, published again, is never rejected as invalid. Not so for infinite translations: they are accepted, and the lookup of the transform just accepted answers NaN.", "quantifier": "all machines that round to nearest with a C library good to some units in the last place, all histories of setTransform and clear with arbitrary doubles, all frames, times and tree shapes up to the depth limit", "why_tests_cant": "overflow and NaN depend on the values along every path and on rounding at every step; tests take a few values", "anchors": ["tf2/src/buffer_core.cpp:BufferCore::setTransform", "tf2/src/buffer_core.cpp:TransformAccum", "tf2/src/cache.cpp:TimeCache::interpolate", "tf2/include/tf2/LinearMath/Quaternion.h:slerp", "tf2/include/tf2/LinearMath/Quaternion.h:quatRotate"]}
{"id": "C90", "title": "The listener's thread, its queues and its destruction", "statement": "A TransformListener with its own thread handles the messages of each topic in the order of arrival; a message is lost only if 100 newer ones of its topic arrive before the thread gets to it, so none is lost if the thread never falls more than 100 behind; what has arrived is handled (or pushed out) within 401(L+2)+3 steps of the thread if messages have at most L transforms; the calls made are exactly those due for the messages handled. The destructor returns (within 201(L+2)+2 steps of the thread), and when it has returned every message begun has been applied completely and the listener never touches the buffer again. Not so: a message that makes a callback throw something else than a tf2 exception ends the process; more than 100 latched static messages that arrive at once lose transforms for good; and after the destructor the buffer still claims to have a thread, so calls with a timeout wait for data that cannot come.", "quantifier": "all interleavings of arrivals, steps of the thread, construction, destruction and calls of the buffer by others; all messages, clocks and numbers of transforms", "why_tests_cant": "depends on the schedule of three parties and on queue overflow; tests see a few schedules", "anchors": ["tf2_ros/src/transform_listener.cpp:TransformListener::initWithThread", "tf2_ros/src/transform_listener.cpp:TransformListener::~TransformListener", "tf2_ros/src/transform_listener.cpp:TransformListener::subscription_callback_impl", "tf2_ros/include/tf2_ros/transform_listener.h:dedicatedListenerThread", "tf2/include/tf2/buffer_core.h:setUsingDedicatedThread"]}
{"id": "C91", "title": "Nodes that received the same transforms answer the same", "statement": "Two nodes, each with its own TransformListener, thread, clock and history, to which the same acceptable and mutually consistent transforms arrived, answer every query the same once both have caught up; each answers as a buffer that was simply told those transforms. Threads, queues, the order of the two topics, the grouping into messages, repetitions and publishers leave no trace. A listener that never falls more than 100 messages of a topic behind has caught up within 402(L+2)+3 steps of its thread after the last arrival. Not so: if the clock is set back between two messages, or if a frame is published on both topics, two nodes that received the same messages can disagree for good.", "quantifier": "all pairs of interleavings of arrivals, thread steps, construction and calls by others; all messages, clocks, groupings and repetitions", "why_tests_cant": "quantifies over pairs of schedules of separate processes; tests see a few", "anchors": ["tf2_ros/src/transform_listener.cpp:TransformListener::subscription_callback_impl", "tf2_ros/src/transform_listener.cpp:TransformListener::initWithThread", "tf2/src/buffer_core.cpp:BufferCore::setTransform", "tf2/src/cache.cpp:TimeCache::insertData"]}
{"id": "C92", "title": "Rounding error of the five-argument lookup and of tf2::Transform", "statement": "On a machine that rounds after every arithmetic operation, the five-argument lookupTransform throws exactly when the one in exact arithmetic does, with the same exception; otherwise its answer has the same names and stamp, the rotation (up to the sign of the quaternion) is off by at most (5(N+M+2)+280)E and the translation by at most (5(N+M+2)^2+31(N+M+2))EL+3(N+M+2)(dt+40 eta), where N and M are the numbers of transforms on the legs through the fixed frame, L bounds the translations, E = 10u+dq+16 eta, u and eta are the machine's errors and dq, dt those of its interpolation. With doubles and static transforms: (N+M+58)/2^46 and (N+M+6)^2 (L/2^46+2^-1000). The conversion to a matrix, the product of matrices and reading the quaternion back, including its branches, never amplify the error beyond a constant. Transforming a point v with a tf2::Transform is off by at most 300(u+eta)|v|+2u|t|+20 eta. Storing a quaternion of nearly unit length in a Matrix3x3 and reading it back gives it, normalised, up to sign and 2800(u+eta).", "quantifier": "all histories of setTransform and clear with nearly unit quaternions and translations up to L, all frames and times, all rounding functions with the stated error, all C libraries with the stated accuracy", "why_tests_cant": "error bounds over all inputs, path lengths and rounding modes; the branches of getRotation are decided by rounded numbers", "anchors": ["tf2/src/buffer_core.cpp:BufferCore::lookupTransform", "tf2/src/buffer_core.cpp:transformMsgToTF2", "tf2/src/buffer_core.cpp:transformTF2ToMsg", "tf2/include/tf2/LinearMath/Matrix3x3.h:setRotation", "tf2/include/tf2/LinearMath/Matrix3x3.h:getRotation", "tf2/include/tf2/LinearMath/Transform.h:operator*"]}
{"id": "C93", "title": "Which members are free of data races", "statement": "When any number of threads make any sequences of calls on buffers, message filters, buffer servers, listeners and static broadcasters, two accesses by different threads to the same member of an object, one of them a write, are always separated by the first thread releasing a mutex that the second acquires afterwards - for the authorities, the callback map and its counter, the vector of requests (but not its times), the text of the target frames, the queued messages of a filter, its success and drop counts, the failure signal, the active goals of a server and the constants. For the 17 other members (the frame table and caches, the frame names, the stored callback functions and request times read after the mutex is released, the request counter, the two dedicated-thread flags, six members of MessageFilter read or counted without their mutex, last_update_, the broadcaster's accumulated message) the statement is false: for each of them some program has a data race, which is undefined behaviour in C++. The race on the request counter lets two concurrent addTransformableRequest calls return the same handle.", "quantifier": "all numbers of threads, all sequences of calls on any objects, all interleavings, exceptions at any point", "why_tests_cant": "data races depend on the interleaving; a race need not have any visible effect in a run that has one", "anchors": ["tf2/src/buffer_core.cpp:BufferCore::addTransformableRequest", "tf2/src/buffer_core.cpp:BufferCore::testTransformableRequests", "tf2/src/buffer_core.cpp:BufferCore::lookupTransform", "tf2/include/tf2/buffer_core.h:_lookupFrameNumber", "tf2/include/tf2/buffer_core.h:setUsingDedicatedThread", "tf2_ros/include/tf2_ros/message_filter.h:add", "tf2_ros/src/transform_listener.cpp:subscription_callback_impl", "tf2_ros/src/static_transform_broadcaster.cpp:sendTransform"]}
{"id": "C94", "title": "Transformable requests with several threads", "statement": "Let any number of threads set transforms, make and cancel requests, register and remove callbacks and clear one buffer, in any interleaving. When no thread is between storing a transform and the end of its test of the requests, and nothing but accepted transforms changed the buffer last, every request still pending is one that can be answered neither 'available' nor 'failure', or one during whose addTransformableRequest call another thread stored a transform and after which none was stored. (So a request made while no transform arrives is never lost, and one accepted transform after a request repairs everything.) No request gets lost: a request that is not cancelled and whose callback is not removed is pending, answered, or dropped because its callback is not registered, and once all threads have left the library the answered ones have been called back. For each handle the callback is called at most as often as the handle was given out, with the callback and the names of such a request, and only when the answer was right at the moment it was found. If calls of addTransformableRequest do not overlap, handles are distinct and no callback is called twice. The mutex of the requests is always given back within a bounded number of its holder's own steps, whatever the others do, and every call can return. A call that no other thread comes between does exactly what the same call does without threads (the other C28-C35 properties then apply to it). Both exceptions are real: a request whose transform is stored while it is being made stays pending although it could be answered, with no thread left in the library; two overlapping requests can get the same handle, and cancelling one cancels the other.", "quantifier": "all numbers of threads, all sequences of calls, all interleavings of the pieces between lock operations and reads of shared data, all frames and times", "why_tests_cant": "a lost wake-up needs another thread to finish setTransform between two statements of addTransformableRequest; a test hits that window by luck", "anchors": ["tf2/src/buffer_core.cpp:BufferCore::addTransformableRequest", "tf2/src/buffer_core.cpp:BufferCore::testTransformableRequests", "tf2/src/buffer_core.cpp:BufferCore::setTransform", "tf2/src/buffer_core.cpp:BufferCore::cancelTransformableRequest", "tf2/src/buffer_core.cpp:BufferCore::removeTransformableCallback"]}
{"id": "C95", "title": "What a machine with infinities and NaN answers is the exact answer, nearly", "statement": "Take IEEE 754 doubles with infinities and NaN, every operation rounded to nearest, and a C library good to four units in the last place. Let any history of transforms be offered, with rotations of unit length (up to tau in the squared length, tau at most 2e-7), translations up to L (at most 1e9 m) and stamps that fit in a ros::Time, and, anywhere in between, any number of broken messages (NaN anywhere, infinite rotations, rotations that are no unit quaternions), through setTransform and clear. Then every lookupTransform, with one time or two, throws exactly what it would throw in exact real arithmetic without the broken messages, or answers with the same names and stamp and seven numbers. With one time and N transforms on the way, the rotation is off by at most (N+1)(3e-7+4 tau) and the translation by at most (N+1)^2 ((5e-7+8 tau) L + 1e-40), if no two transforms that follow one another differ by half a turn; if all transforms are static, by at most (N+1)/2^48 and (N+1)^2 (L/2^47 + 2^-1000). With two times, legs of N and M transforms and S=N+M+2: (5S+280)(2e-7+2 tau) and (5S^2+31S)((2e-7+2 tau)L + 1e-40), static (N+M+58)/2^46 and (N+M+6)^2 (L/2^46+2^-1000). Up to translations of 1e290 m there is no overflow anywhere: the answer is exactly that of rounded arithmetic without infinities.", "quantifier": "all roundings to nearest, all accurate C libraries, all histories of messages of doubles with any broken messages in between, all frames and times", "why_tests_cant": "a test can neither try all transforms nor place broken messages everywhere in a history; whether an intermediate result overflows depends on all of them", "anchors": ["tf2/src/buffer_core.cpp:BufferCore::setTransform", "tf2/src/buffer_core.cpp:BufferCore::lookupTransform", "tf2/src/buffer_core.cpp:TransformAccum::accum", "tf2/src/cache.cpp:TimeCache::interpolate", "tf2/include/tf2/LinearMath/Quaternion.h:Quaternion::slerp", "tf2/include/tf2/LinearMath/Matrix3x3.h:Matrix3x3::getRotation"]}
{"id": "C96", "title": "A caller that waits gets the transform if what it needs arrives in time", "statement": "A listener with its own thread fills the buffer (not destroyed, no exception, no message pushed out of the queues, its clock does not go back, nobody else changes the buffer), and another thread calls canTransform or lookupTransform with a timeout. All that is ever published agrees with one tree, and every frame on the two ways up to a common frame is either static, or moving with stamps that do not go back, one transform at or before the time asked for, one at or after it and none that is newer than the first by more than the cache time. If the last message needed arrived, the thread then made 402 (L+2)+3 steps (messages of at most L transforms) and the deadline did not pass before that, the wait returns true, never false, and within six steps of the caller; lookupTransform returns the transform. With two times and a fixed frame the same holds if both halves are published in time. This holds for every interleaving of arrivals, callbacks and caller, whatever else arrives before, meanwhile or later. Every transform that arrived has been given to the buffer after so many steps, and what is available stays available.", "quantifier": "all programs with a listener, all interleavings of the arrivals, the thread and the caller, all sets of frames and transforms that agree with one tree, all timeouts", "why_tests_cant": "a test sees a few interleavings; that the answer never is a spurious false depends on every order of arrival, callback and poll, and on everything published later", "anchors": ["tf2_ros/src/buffer.cpp:Buffer::canTransform", "tf2_ros/src/buffer.cpp:Buffer::lookupTransform", "tf2_ros/src/transform_listener.cpp:TransformListener::subscription_callback_impl", "tf2_ros/include/tf2_ros/transform_listener.h:TransformListener::dedicatedListenerThread", "tf2/src/buffer_core.cpp:BufferCore::canTransform", "tf2/src/cache.cpp:TimeCache::getData"]}
{"id": "C97", "title": "The program buffer_server answers every goal, with the transform if it arrives in time", "statement": "In the program buffer_server (a listener with its own thread, and a buffer server whose callbacks run one at a time in the main thread, on one buffer and one clock) the listener and the server each do what they do alone. A goal's callback ends within 5 of its steps and the timer's within 4 N + 4 steps for N waiting goals, whatever arrives meanwhile. A cancel request that is handled cancels its goal if the goal was accepted and has no result; none is lost. After one run of the timer's callback every goal that was waiting is answered if its transform was available, or its deadline (the clock at the first step of its callback, and the timeout) was over. If what a goal needs arrives in time (as in C96: last message needed, then 402 (L+2)+3 steps of the listener's thread before the deadline), its result is never an error but the transform, the client returns it, and it is there after one further run of the timer's callback, unless the goal was canceled. The process ends only if an exception leaves the listener's callback or a goal's deadline is not a time.", "quantifier": "all histories of the program: arrivals on the listener's topics, goals, cancel requests, timer callbacks, clock changes and every interleaving of the two threads", "why_tests_cant": "a test runs a few goals against a few orders of arrival; the claim is about every interleaving of the listener's thread with the callbacks and any number of goals", "anchors": ["tf2_ros/src/buffer_server_main.cpp:main", "tf2_ros/src/buffer_server.cpp:BufferServer::goalCB", "tf2_ros/src/buffer_server.cpp:BufferServer::cancelCB", "tf2_ros/src/buffer_server.cpp:BufferServer::checkTransforms", "tf2_ros/src/transform_listener.cpp:TransformListener::TransformListener", "tf2_ros/src/buffer_client.cpp:BufferClient::processResult"]}
{"id": "C98", "title": "A message whose transforms arrive passes the message filter", "statement": "In an orderly run (as in C61), take a message whose frame name is legal and that keeps its chance from its arrival on: once a transform it wants (from its frame to a target frame, at its stamp or at stamp plus tolerance) is there it stays there, no wanted time becomes older than the cache window, the queue has room, and callbacks read \"available\". It is never reported as failed. And once all it wants can be transformed, every callback that was due has been made and its add has returned, the filter has decided to pass it: the user has been told, or the decision is in the callback queue - unless the message was ignored (no target frames), thrown away by clear, or its add threw. The chance, and that all it wants can be transformed in the end, follow from what is published alone: the transforms agree with one tree and the buffer is not cleared; every frame on the ways up to common frames is always static, or moving with stamps that do not go back, one of them at or before each wanted time (and none that is more than the cache time newer than it) and one at or after it; no transform is newer than a wanted time by more than the cache time; and the last change of the buffer is accepted. Neither order nor timing of the transforms, the message, callbacks and other messages matters.", "quantifier": "all histories of the buffer, settings of the filter, messages, and interleavings of the steps of add calls, transforms of others, other users' requests and callbacks in an orderly run", "why_tests_cant": "a message needs several answers that arrive in any order, some at once and some through callbacks, while other messages and users work on the same buffer; a test sees a few orders", "anchors": ["tf2_ros/include/tf2_ros/message_filter.h:MessageFilter::add", "tf2_ros/include/tf2_ros/message_filter.h:MessageFilter::transformable", "tf2/src/buffer_core.cpp:BufferCore::testTransformableRequests"]}
{"id": "C99", "title": "What a message filter leaves in the buffer", "statement": "In an orderly run (as in C61) in which the users of the buffer ask only with their own registered callbacks, each request of the filter that is pending in the buffer was made for a message the filter still holds, or for one whose add is in progress, or for one that it gave up during add (a transform too old, or an exception) - never for a message that passed, was pushed out of the full queue, was dropped by a callback or was cleared. So if no message was given up, the filter has at most (number of messages held and being added) times (number of target frames, doubled with a tolerance) requests pending. clear takes all the filter's requests out of the buffer, the forgotten ones included; after the destructor (which is a clear), if no callback was due at that time, no callback is ever made with one of the filter's handles unless somebody else asks with it. A message given up during add leaves its other requests behind: with two target frames of which one never appears and the other is too old, one more request stays in the buffer with every message, without bound, while the filter holds none and has reported each as dropped.", "quantifier": "all histories of the buffer, settings of the filter, messages, and interleavings of the steps of add calls, transforms of others, other users' requests and callbacks in an orderly run; for the leak, every number of messages", "why_tests_cant": "requests are made one by one, cancelled in a batch or answered in any order; whether each way out of the filter takes all of them along is a matter of every interleaving, and the pending requests cannot be seen through the API except as memory and as the time each setTransform takes", "anchors": ["tf2_ros/include/tf2_ros/message_filter.h:MessageFilter::add", "tf2_ros/include/tf2_ros/message_filter.h:MessageFilter::clear", "tf2_ros/include/tf2_ros/message_filter.h:MessageFilter::~MessageFilter", "tf2_ros/include/tf2_ros/message_filter.h:MessageFilter::transformable", "tf2/src/buffer_core.cpp:BufferCore::addTransformableRequest", "tf2/src/buffer_core.cpp:BufferCore::removeTransformableCallback"]}
{"id": "C100", "title": "Equality and serialisation of vectors and transforms", "statement": "tf2::Vector3 stores a fourth number that is not a coordinate, which operator== compares and serialisation copies. After any program that does not set it on purpose (setW, tf2Vector4), two vectors that were given a value as a whole since their declaration (constructor with coordinates, setValue, an arithmetic expression, a copy of such a vector, deserialisation), whatever was then done to them in place (+=, setX, setMax, setInterpolate3, ...), are compared without undefined behaviour and are equal just if their coordinates are; likewise two transforms, and the comparison of matrices never looks at fourth numbers at all. What was serialised comes back exactly, all numbers of a vector or a transform, whatever happened in between, and a transform without NaN is equal to what comes back; in the float format each number comes back rounded to float, and serialising that again gives the same data. But a vector that is declared and then given its coordinates one by one cannot be compared or serialised without undefined behaviour, and two vectors with the same coordinates are unequal once one was given another fourth number.", "quantifier": "all programs over any number of vectors, matrices and transforms, with all expressions and updates of coordinates; all numbers, NaN included", "why_tests_cant": "whether the hidden number is set, and to what, depends on the whole history of the variable; a test compares vectors of a few histories, and an indeterminate number often happens to be zero", "anchors": ["tf2/include/tf2/LinearMath/Vector3.h:Vector3::operator==", "tf2/include/tf2/LinearMath/Vector3.h:Vector3::serialize", "tf2/include/tf2/LinearMath/Vector3.h:Vector3::deSerializeFloat", "tf2/include/tf2/LinearMath/Vector3.h:Vector3::setInterpolate3", "tf2/include/tf2/LinearMath/Matrix3x3.h:operator==", "tf2/include/tf2/LinearMath/Transform.h:operator==", "tf2/include/tf2/LinearMath/Transform.h:Transform::serializeFloat"]}
{"id": "C101", "title": "The order in which waiting requests are answered", "statement": "An accepted setTransform that does not throw answers the requests it makes answerable in the order of the waiting list, except that each one answered leaves its place to the last one waiting, which is looked at next; the callbacks are queued in that order, and those left keep the order so produced. So the first one answered is the first in the list of those answered, and when at most two are answered the list's order is kept; until the first answer is given the list is in the order asked. When everything waiting is answered, the first comes first and the others come from the last back to the second. Exceptions to what one would expect: for every n, of n+1 requests made one after the other for ever later times the callbacks run for 1, n+1, n, ..., 2, and a message filter passes n+1 messages of one frame with ever later stamps, waiting for the same transform, in that order.", "quantifier": "every history of requests, cancellations, callback removals, transforms, clears and calls, and every further setTransform (fewer than 2^64-1 requests)", "why_tests_cant": "the order depends on which requests of the whole list are answerable at each sweep and on all earlier sweeps; with one or two waiting, as in a test, the order looks right", "anchors": ["tf2/src/buffer_core.cpp:testTransformableRequests", "tf2/src/buffer_core.cpp:addTransformableRequest", "tf2_ros/include/tf2_ros/message_filter.h:transformable"]}
