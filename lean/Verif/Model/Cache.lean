import Verif.Model.Time

/-!
# Transform caches: `tf2/src/cache.cpp`, `tf2/src/static_cache.cpp`

`X` is the type of rigid transforms (rotation + translation) with the operations of `Rigid X`.
No algebraic law is assumed here.
-/
namespace Tf2

/-- The operations on transforms that the C++ performs.  One value of `X` stands for the pair
(`tf2::Quaternion rotation_`, `tf2::Vector3 translation_`) of tf2/include/tf2/transform_storage.h:75-76,
or for a `geometry_msgs::Transform`.  No laws. -/
class Rigid (X : Type) where
  /-- identity, tf2/src/buffer_core.cpp:519-524, 605 -/
  one : X
  /-- `comp a b`: `(quatRotate(a.rot, b.vec) + a.vec, a.rot * b.rot)`,
  tf2/src/buffer_core.cpp:542-543, 547-548, 575-576 -/
  comp : X → X → X
  /-- `(a.rot.inverse(), quatRotate(a.rot.inverse(), -a.vec))`, tf2/src/buffer_core.cpp:564-567, 572-573 -/
  inv : X → X
  /-- `interp one two num den`: translation and rotation of `TimeCache::interpolate` with
  ratio `num/den`, tf2/src/cache.cpp:195-201 -/
  interp : X → X → Int → Int → X
  /-- product taken through `tf2::Transform` (matrix form) and read back as a message,
  tf2/src/buffer_core.cpp:665-668 -/
  mulMsg : X → X → X
  /-- some component is NaN, tf2/src/buffer_core.cpp:238-239 -/
  hasNaN : X → Bool
  /-- `|x²+y²+z²+w² - 1| < 10e-3`, tf2/src/buffer_core.cpp:249-252 -/
  normOK : X → Bool

/-- `tf2::TransformStorage`, tf2/include/tf2/transform_storage.h:51-80. -/
structure Sample (X : Type) where
  stamp : Time
  parent : Nat
  child : Nat
  xf : X
deriving DecidableEq, Repr

variable {X : Type}

/-- Result of `TimeCache::findClosest`: the returned count with the pointers it set, or undefined
behaviour (dereferencing an end iterator / decrementing `begin()` / `lower_bound` on an
unpartitioned range). -/
inductive Closest (X : Type) where
  | zero
  | one (a : Sample X)
  | two (older newer : Sample X)
  | ub
deriving DecidableEq, Repr

/-- `std::lower_bound(storage_.begin(), storage_.end(), target, std::greater<TransformStorage>())`,
tf2/src/cache.cpp:173-176.  External contract: on a range partitioned by `elem > target` it returns
the partition point; otherwise the behaviour is undefined (`none`). -/
def lowerBound (st : List (Sample X)) (t : Time) : Option Nat :=
  let i := (st.takeWhile (fun s => decide (t < s.stamp))).length
  if (st.drop i).all (fun s => decide (¬ t < s.stamp)) then some i else none

/-- `TimeCache::findClosest`, tf2/src/cache.cpp:111-184 (error text: see Model/ErrorText.lean). The list is
`storage_`, front first. -/
def findClosest (st : List (Sample X)) (t : Time) : Closest X :=
  match st with
  | [] => .zero                                            -- 114-117
  | front :: rest =>
    if t = 0 then .one front                               -- 120-124
    else match rest with
      | [] => if front.stamp = t then .one front else .zero -- 127-140
      | second :: rest' =>
        let back := (second :: rest').getLast (List.cons_ne_nil _ _)
        if t = front.stamp then .one front                 -- 145-149
        else if t = back.stamp then .one back              -- 150-154
        else if front.stamp < t then .zero                 -- 156-160
        else if t < back.stamp then .zero                  -- 161-165
        else match lowerBound st t with                    -- 173-181
          | none => .ub
          | some i =>
            match st[i]?, i with
            | some older, j + 1 =>
              match st[j]? with
              | some newer => .two older newer
              | none => .ub
            | _, _ => .ub

/-- `TimeCache::interpolate`, tf2/src/cache.cpp:186-206. -/
def interpolate [Rigid X] (one two : Sample X) (t : Time) : Sample X :=
  if two.stamp = one.stamp then two
  else
    { stamp := t
      parent := one.parent
      child := one.child
      xf := Rigid.interp one.xf two.xf ((t : Int) - one.stamp) ((two.stamp : Int) - one.stamp) }

/-- Result of `getData`. -/
inductive GetRes (X : Type) where
  | fail
  | ok (s : Sample X)
  | ub
deriving DecidableEq, Repr

/-- `TimeCache::getData`, tf2/src/cache.cpp:208-239. -/
def dynGetData [Rigid X] (st : List (Sample X)) (t : Time) : GetRes X :=
  match findClosest st t with
  | .zero => .fail
  | .one a => .ok a
  | .two a b => if a.parent = b.parent then .ok (interpolate a b t) else .ok a
  | .ub => .ub

/-- Result of `getParent`: an id (0 = failure), or undefined behaviour. -/
inductive ParRes where
  | id (n : Nat)
  | ub
deriving DecidableEq, Repr

/-- `TimeCache::getParent`, tf2/src/cache.cpp:241-253. -/
def dynGetParent (st : List (Sample X)) (t : Time) : ParRes :=
  match findClosest st t with
  | .zero => .id 0
  | .one a => .id a.parent
  | .two a _ => .id a.parent
  | .ub => .ub

/-- Outcome of `insertData`: `true`, `false` with TF_OLD_DATA, `false` with TF_REPEATED_DATA, or
`std::runtime_error` from time arithmetic. -/
inductive InsertRes where
  | accepted
  | tooOld
  | repeated
  | threw
deriving DecidableEq, Repr

/-- The loop of `TimeCache::pruneList`, tf2/src/cache.cpp:332-335, on the reversed storage (so that
`storage_.back()` is the head).  The flag says whether `back().stamp_ + max_storage_time_` threw. -/
def pruneRev (D : Duration) (latest : Time) : List (Sample X) → List (Sample X) × Bool
  | [] => ([], false)
  | b :: r =>
    match timeAdd b.stamp D with
    | none => (b :: r, true)
    | some e => if e < latest then pruneRev D latest r else (b :: r, false)

/-- `TimeCache::pruneList`, tf2/src/cache.cpp:328-337.  Only called on a non-empty list
(`storage_.begin()` is dereferenced at 330); the empty case is unreachable. -/
def pruneList (D : Duration) (st : List (Sample X)) : List (Sample X) × Bool :=
  match st with
  | [] => ([], false)
  | front :: _ =>
    let r := pruneRev D front.stamp st.reverse
    (r.1.reverse, r.2)

/-- Lines 272-292 of `TimeCache::insertData`: find the first element not newer than the new one,
refuse an equal stamp, insert before it, prune. -/
def insertBody (D : Duration) (st : List (Sample X)) (s : Sample X) : List (Sample X) × InsertRes :=
  let pre := st.takeWhile (fun e => decide (¬ e.stamp ≤ s.stamp))
  let post := st.dropWhile (fun e => decide (¬ e.stamp ≤ s.stamp))
  let ins := fun (_ : Unit) =>
    let r := pruneList D (pre ++ s :: post)
    (r.1, if r.2 then InsertRes.threw else InsertRes.accepted)
  match post with
  | e :: _ => if e.stamp = s.stamp then (st, .repeated) else ins ()
  | [] => ins ()

/-- `TimeCache::insertData`, tf2/src/cache.cpp:255-293. -/
def dynInsert (D : Duration) (st : List (Sample X)) (s : Sample X) : List (Sample X) × InsertRes :=
  match st with
  | [] => insertBody D st s
  | front :: _ =>
    match timeAdd s.stamp D with
    | none => (st, .threw)                                  -- exception at line 261
    | some lim => if lim < front.stamp then (st, .tooOld) else insertBody D st s

/-- `TimeCache::getLatestTimeAndParent`, tf2/src/cache.cpp:305-314. -/
def dynLatest (st : List (Sample X)) : Time × Nat :=
  match st with
  | [] => (0, 0)
  | s :: _ => (s.stamp, s.parent)

/-- `TimeCache::getLatestTimestamp`, tf2/src/cache.cpp:316-320. -/
def dynLatestStamp (st : List (Sample X)) : Time :=
  match st with
  | [] => 0
  | s :: _ => s.stamp

/-- `TimeCache::getOldestTimestamp`, tf2/src/cache.cpp:322-326. -/
def dynOldestStamp (st : List (Sample X)) : Time :=
  match st.getLast? with
  | none => 0
  | some s => s.stamp

/-- A cache object behind `TimeCacheInterfacePtr`: `TimeCache` (tf2/include/tf2/time_cache.h:88-133)
or `StaticCache` (136-157).  The static storage is `none` until the first `insertData`: the member
is not initialised by the constructor, so reading it before would be undefined behaviour. -/
inductive Cache (X : Type) where
  | dyn (maxStorage : Duration) (storage : List (Sample X))
  | stat (storage : Option (Sample X))
deriving DecidableEq, Repr

namespace Cache

/-- virtual `getData`: tf2/src/cache.cpp:208-239 and tf2/src/static_cache.cpp:41-46. -/
def getData [Rigid X] : Cache X → Time → GetRes X
  | dyn _ st, t => dynGetData st t
  | stat (some s), t => .ok { s with stamp := t }
  | stat none, _ => .ub

/-- virtual `getParent`: tf2/src/cache.cpp:241-253 and tf2/src/static_cache.cpp:61-64. -/
def getParent : Cache X → Time → ParRes
  | dyn _ st, t => dynGetParent st t
  | stat (some s), _ => .id s.parent
  | stat none, _ => .ub

/-- virtual `insertData`: tf2/src/cache.cpp:255-293 and tf2/src/static_cache.cpp:48-52. -/
def insert : Cache X → Sample X → Cache X × InsertRes
  | dyn D st, s => let r := dynInsert D st s; (dyn D r.1, r.2)
  | stat _, s => (stat (some s), .accepted)

/-- virtual `clearList`: tf2/src/cache.cpp:295-298 and tf2/src/static_cache.cpp:57. -/
def clearList : Cache X → Cache X
  | dyn D _ => dyn D []
  | stat s => stat s

/-- virtual `getListLength`: tf2/src/cache.cpp:300-303 and tf2/src/static_cache.cpp:59. -/
def listLength : Cache X → Nat
  | dyn _ st => st.length
  | stat _ => 1

/-- virtual `getLatestTimeAndParent`: tf2/src/cache.cpp:305-314 and tf2/src/static_cache.cpp:66-69.
`none` is undefined behaviour (uninitialised static storage). -/
def latestTimeAndParent : Cache X → Option (Time × Nat)
  | dyn _ st => some (dynLatest st)
  | stat (some s) => some (0, s.parent)
  | stat none => none

/-- virtual `getLatestTimestamp`: tf2/src/cache.cpp:316-320 and tf2/src/static_cache.cpp:71-74. -/
def latestStamp : Cache X → Time
  | dyn _ st => dynLatestStamp st
  | stat _ => 0

/-- virtual `getOldestTimestamp`: tf2/src/cache.cpp:322-326 and tf2/src/static_cache.cpp:76-79. -/
def oldestStamp : Cache X → Time
  | dyn _ st => dynOldestStamp st
  | stat _ => 0

end Cache

end Tf2
